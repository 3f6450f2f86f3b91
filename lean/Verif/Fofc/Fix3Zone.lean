import Verif.Fofc.Fix3Props
import Mathlib.Tactic.NormNum
import Mathlib.Tactic.Linarith

/-!
# C59 in three dimensions: single zones, and what does not hold
-/

namespace Athena.Fofc
open Athena.Vl3

variable {ns : ℕ}

/-- The zone is active and touches no boundary of the Grid. -/
def Inner (g : Rng) (k j i : ℤ) : Prop := (g.ks < k ∧ k < g.ke) ∧ (g.js < j ∧ j < g.je) ∧ (g.is < i ∧ i < g.ie)

/-- Two zones that share a face, an edge or a corner, or are the same. -/
def Near (z w : ℤ × ℤ × ℤ) : Prop :=
  (w.1 - 1 ≤ z.1 ∧ z.1 ≤ w.1 + 1) ∧ (w.2.1 - 1 ≤ z.2.1 ∧ z.2.1 ≤ w.2.1 + 1) ∧ (w.2.2 - 1 ≤ z.2.2 ∧ z.2.2 ≤ w.2.2 + 1)

/-- Away from the boundary of the Grid the first-order values are those of `X`. -/
structure PKept (g : Rng) (X Y : Fx ns) : Prop where
  P1 : ∀ k j i, g.is < i ∧ i ≤ g.ie → Y.P1 k j i = X.P1 k j i
  P2 : ∀ k j i, g.js < j ∧ j ≤ g.je → Y.P2 k j i = X.P2 k j i
  P3 : ∀ k j i, g.ks < k ∧ k ≤ g.ke → Y.P3 k j i = X.P3 k j i
  p1 : ∀ k j i, g.js < j ∧ j ≤ g.je ∧ g.ks < k ∧ k ≤ g.ke → Y.p1 k j i = X.p1 k j i
  p2 : ∀ k j i, g.is < i ∧ i ≤ g.ie ∧ g.ks < k ∧ k ≤ g.ke → Y.p2 k j i = X.p2 k j i
  p3 : ∀ k j i, g.is < i ∧ i ≤ g.ie ∧ g.js < j ∧ j ≤ g.je → Y.p3 k j i = X.p3 k j i

theorem pkept_refl (g : Rng) (X : Fx ns) : PKept g X X :=
  ⟨fun _ _ _ _ => rfl, fun _ _ _ _ => rfl, fun _ _ _ _ => rfl, fun _ _ _ _ => rfl, fun _ _ _ _ => rfl, fun _ _ _ _ => rfl⟩

theorem pkept_fix {c : Coef ℝ} {P : Pot} {g : Rng} {X Y : Fx ns} {k j i : ℤ} (hz : InGrid g k j i) (h : PKept g X Y) :
    PKept g X (fixCell c P g Y k j i) := by
  obtain ⟨⟨a1, a2⟩, ⟨a3, a4⟩, a5, a6⟩ := hz
  constructor
  · intro k' j' i' hb; rw [fix_P1, keep_P1, if_neg (by omega)]; exact h.P1 _ _ _ hb
  · intro k' j' i' hb; rw [fix_P2, keep_P2, if_neg (by omega)]; exact h.P2 _ _ _ hb
  · intro k' j' i' hb; rw [fix_P3, keep_P3, if_neg (by omega)]; exact h.P3 _ _ _ hb
  · intro k' j' i' hb; rw [fix_p1, keep_p1, if_neg (by unfold OnB; omega)]; exact h.p1 _ _ _ hb
  · intro k' j' i' hb; rw [fix_p2, keep_p2, if_neg (by unfold OnB; omega)]; exact h.p2 _ _ _ hb
  · intro k' j' i' hb; rw [fix_p3, keep_p3, if_neg (by unfold OnB; omega)]; exact h.p3 _ _ _ hb

/-- All faces and edges of the zone carry the first-order values of `X`. -/
structure Low (X Y : Fx ns) (k j i : ℤ) : Prop where
  F1 : ∀ i', i' = i ∨ i' = i + 1 → Y.F1 k j i' = X.P1 k j i'
  F2 : ∀ j', j' = j ∨ j' = j + 1 → Y.F2 k j' i = X.P2 k j' i
  F3 : ∀ k', k' = k ∨ k' = k + 1 → Y.F3 k' j i = X.P3 k' j i
  e1 : ∀ k' j', (k' = k ∨ k' = k + 1) → (j' = j ∨ j' = j + 1) → Y.e1 k' j' i = X.p1 k' j' i
  e2 : ∀ k' i', (k' = k ∨ k' = k + 1) → (i' = i ∨ i' = i + 1) → Y.e2 k' j i' = X.p2 k' j i'
  e3 : ∀ j' i', (j' = j ∨ j' = j + 1) → (i' = i ∨ i' = i + 1) → Y.e3 k j' i' = X.p3 k j' i'

theorem low_fix {c : Coef ℝ} {P : Pot} {g : Rng} {X Y : Fx ns} {k j i k' j' i' : ℤ} (hz : Inner g k j i)
    (h : PKept g X Y) (hl : Low X Y k j i ∨ (k', j', i') = (k, j, i)) : Low X (fixCell c P g Y k' j' i') k j i := by
  obtain ⟨⟨b1, b2⟩, ⟨b3, b4⟩, b5, b6⟩ := hz
  have key : ¬Low X Y k j i → k' = k ∧ j' = j ∧ i' = i := by
    intro hn
    rcases hl with hl | hl
    · exact absurd hl hn
    · exact ⟨congrArg Prod.fst hl, congrArg (fun z => z.2.1) hl, congrArg (fun z => z.2.2) hl⟩
  constructor
  · intro a ha; rw [fix_F1]; split_ifs with hc
    · exact h.P1 _ _ _ (by omega)
    · by_cases hL : Low X Y k j i
      · exact hL.F1 a ha
      · have := key hL; exact absurd (by omega) hc
  · intro a ha; rw [fix_F2]; split_ifs with hc
    · exact h.P2 _ _ _ (by omega)
    · by_cases hL : Low X Y k j i
      · exact hL.F2 a ha
      · have := key hL; exact absurd (by omega) hc
  · intro a ha; rw [fix_F3]; split_ifs with hc
    · exact h.P3 _ _ _ (by omega)
    · by_cases hL : Low X Y k j i
      · exact hL.F3 a ha
      · have := key hL; exact absurd (by omega) hc
  · intro a b ha hb; rw [fix_e1]; split_ifs with hc
    · exact h.p1 _ _ _ (by omega)
    · by_cases hL : Low X Y k j i
      · exact hL.e1 a b ha hb
      · have := key hL; exact absurd (by unfold OnB; omega) hc
  · intro a b ha hb; rw [fix_e2]; split_ifs with hc
    · exact h.p2 _ _ _ (by omega)
    · by_cases hL : Low X Y k j i
      · exact hL.e2 a b ha hb
      · have := key hL; exact absurd (by unfold OnB; omega) hc
  · intro a b ha hb; rw [fix_e3]; split_ifs with hc
    · exact h.p3 _ _ _ (by omega)
    · by_cases hL : Low X Y k j i
      · exact hL.e3 a b ha hb
      · have := key hL; exact absurd (by unfold OnB; omega) hc

/-- What the step makes of a zone depends on the values on its faces and edges only. -/
theorem update_low (c : Coef ℝ) (g : Rng) (S0 : St ℝ ns) {X Y : Fx ns} {k j i : ℤ} (hz : InGrid g k j i) (h : Low X Y k j i) :
    (update c g S0 Y.F1 Y.F2 Y.F3 Y.e1 Y.e2 Y.e3).U k j i = (update c g S0 X.P1 X.P2 X.P3 X.p1 X.p2 X.p3).U k j i := by
  have hz' := hz
  obtain ⟨⟨h1, h2⟩, ⟨h3, h4⟩, h5, h6⟩ := hz'
  have l1 := h.F1 i (.inl rfl)
  have l2 := h.F1 (i+1) (.inr rfl)
  have l3 := h.F2 j (.inl rfl)
  have l4 := h.F2 (j+1) (.inr rfl)
  have l5 := h.F3 k (.inl rfl)
  have l6 := h.F3 (k+1) (.inr rfl)
  obtain ⟨b1, b2, b3⟩ := update_Bc c g S0 Y.F1 Y.F2 Y.F3 Y.e1 Y.e2 Y.e3 hz
  obtain ⟨d1, d2, d3⟩ := update_Bc c g S0 X.P1 X.P2 X.P3 X.p1 X.p2 X.p3 hz
  refine cons_of_ext (fun v => ?_) ?_ ?_ ?_
  · rw [update_of c g S0 _ _ _ _ _ _ v hz, update_of c g S0 _ _ _ _ _ _ v hz, l1, l2, l3, l4, l5, l6]
  · rw [b1, d1, upd_B1 _ _ _ _ _ _ _ _ _ h1 h2 h3 h4 h5 (by omega), upd_B1 _ _ _ _ _ _ _ _ _ h1 h2 h3 h4 (by omega) (by omega),
      upd_B1 _ _ _ _ _ _ _ _ _ h1 h2 h3 h4 h5 (by omega), upd_B1 _ _ _ _ _ _ _ _ _ h1 h2 h3 h4 (by omega) (by omega)]
    simp only [ct1, h.e2 k i (.inl rfl) (.inl rfl), h.e2 k (i+1) (.inl rfl) (.inr rfl), h.e2 (k+1) i (.inr rfl) (.inl rfl),
      h.e2 (k+1) (i+1) (.inr rfl) (.inr rfl), h.e3 j i (.inl rfl) (.inl rfl), h.e3 j (i+1) (.inl rfl) (.inr rfl),
      h.e3 (j+1) i (.inr rfl) (.inl rfl), h.e3 (j+1) (i+1) (.inr rfl) (.inr rfl)]
  · rw [b2, d2, upd_B2 _ _ _ _ _ _ _ _ _ h1 h2 h3 (by omega) h5 h6, upd_B2 _ _ _ _ _ _ _ _ _ h1 h2 (by omega) (by omega) h5 h6,
      upd_B2 _ _ _ _ _ _ _ _ _ h1 h2 h3 (by omega) h5 h6, upd_B2 _ _ _ _ _ _ _ _ _ h1 h2 (by omega) (by omega) h5 h6]
    simp only [ct2, h.e1 k j (.inl rfl) (.inl rfl), h.e1 k (j+1) (.inl rfl) (.inr rfl), h.e1 (k+1) j (.inr rfl) (.inl rfl),
      h.e1 (k+1) (j+1) (.inr rfl) (.inr rfl), h.e3 j i (.inl rfl) (.inl rfl), h.e3 j (i+1) (.inl rfl) (.inr rfl),
      h.e3 (j+1) i (.inr rfl) (.inl rfl), h.e3 (j+1) (i+1) (.inr rfl) (.inr rfl)]
  · rw [b3, d3, upd_B3 _ _ _ _ _ _ _ _ _ h1 (by omega) h3 h4 h5 h6, upd_B3 _ _ _ _ _ _ _ _ _ (by omega) (by omega) h3 h4 h5 h6,
      upd_B3 _ _ _ _ _ _ _ _ _ h1 (by omega) h3 h4 h5 h6, upd_B3 _ _ _ _ _ _ _ _ _ (by omega) (by omega) h3 h4 h5 h6]
    simp only [ct3, h.e1 k j (.inl rfl) (.inl rfl), h.e1 k (j+1) (.inl rfl) (.inr rfl), h.e1 (k+1) j (.inr rfl) (.inl rfl),
      h.e1 (k+1) (j+1) (.inr rfl) (.inr rfl), h.e2 k i (.inl rfl) (.inl rfl), h.e2 k (i+1) (.inl rfl) (.inr rfl),
      h.e2 (k+1) i (.inr rfl) (.inl rfl), h.e2 (k+1) (i+1) (.inr rfl) (.inr rfl)]

theorem work_low (c : Coef ℝ) (P : Pot) {X Y : Fx ns} {k j i : ℤ} (h : Low X Y k j i) :
    work c P Y.F1 Y.F2 Y.F3 k j i = work c P X.P1 X.P2 X.P3 k j i := by
  simp only [work, h.F1 i (.inl rfl), h.F1 (i+1) (.inr rfl), h.F2 j (.inl rfl), h.F2 (j+1) (.inr rfl), h.F3 k (.inl rfl), h.F3 (k+1) (.inr rfl)]

/-- **C59.** A zone away from the boundary of the Grid that is found bad ends as the step with the first-order fluxes makes it, whatever
else is corrected before or after. -/
theorem fofc_first_order {c : Coef ℝ} {P : Pot} {g : Rng} {S0 : St ℝ ns} {X : Fx ns} (h : Made c P g S0 X) {bad : Cons ℝ ns → Bool}
    {k j i : ℤ} (hz : Inner g k j i) (hb : FoundBad bad c P g X (k, j, i)) :
    (step14 bad c P g X).S.U k j i =
      let u := (update c g S0 X.P1 X.P2 X.P3 X.p1 X.p2 X.p3).U k j i
      { u with E := u.E - work c P X.P1 X.P2 X.P3 k j i } := by
  obtain ⟨l, r, hlr, hbad⟩ := hb
  have hz' : InGrid g k j i := by obtain ⟨⟨_, _⟩, ⟨_, _⟩, _, _⟩ := hz; exact ⟨⟨by omega, by omega⟩, ⟨by omega, by omega⟩, by omega, by omega⟩
  have hl : ∀ z ∈ l, z ∈ zones g := fun z hz => by rw [hlr]; exact List.mem_append_left _ hz
  have hr : ∀ z ∈ r, z ∈ zones g := fun z hz => by rw [hlr]; exact List.mem_append_right _ (List.mem_cons_of_mem _ hz)
  have hA : PKept g X (l.foldl (turn bad c P g) X) := fold_inv (PKept g X) (fun _ _ _ _ a b => pkept_fix a b) l hl X (pkept_refl g X)
  have hs : step14 bad c P g X = r.foldl (turn bad c P g) (fixCell c P g (l.foldl (turn bad c P g) X) k j i) := by
    unfold step14
    rw [hlr, List.foldl_append, List.foldl_cons]
    congr 1
    unfold turn
    exact if_pos hbad
  have hL : PKept g X (step14 bad c P g X) ∧ Low X (step14 bad c P g X) k j i := by
    rw [hs]
    exact fold_inv (fun Y => PKept g X Y ∧ Low X Y k j i) (fun Y _ _ _ a b => ⟨pkept_fix a b.1, low_fix hz b.1 (.inl b.2)⟩) r hr _
      ⟨pkept_fix hz' hA, low_fix hz hA (.inr rfl)⟩
  rw [(fofc_made h bad).U k j i hz', update_low c g S0 hz' hL.2, work_low c P hL.2]

/-- `FixCell` does not change zones that share no face, edge or corner with the bad one. -/
theorem fix_far {c : Coef ℝ} {P : Pot} {g : Rng} {X : Fx ns} {k j i k' j' i' : ℤ} (hf : ¬Near (k', j', i') (k, j, i)) :
    (fixCell c P g X k j i).S.U k' j' i' = X.S.U k' j' i' := by
  have hf' : ¬((k - 1 ≤ k' ∧ k' ≤ k + 1) ∧ (j - 1 ≤ j' ∧ j' ≤ j + 1) ∧ (i - 1 ≤ i' ∧ i' ≤ i + 1)) := hf
  rw [fixCell_eq, ← keep_S g X k j i]
  generalize keepEdges g X k j i = X
  have e : (fixTail c P g X k j i).S.U k' j' i' = (spreadCorr c P g (difs X k j i) k j i X.S).U k' j' i' := if_neg hf'
  rw [e]
  simp only [spreadCorr]
  split_ifs <;> simp only [applyCorr, setAt] <;> (repeat rw [if_neg (by omega)])

/-- **C59.** A zone that shares no face, edge or corner with a zone found bad is left as it was. -/
theorem fofc_elsewhere {c : Coef ℝ} {P : Pot} {g : Rng} {X : Fx ns} {bad : Cons ℝ ns → Bool} {k j i : ℤ}
    (hn : ∀ w, FoundBad bad c P g X w → ¬Near (k, j, i) w) : (step14 bad c P g X).S.U k j i = X.S.U k j i := by
  have key : ∀ r l, zones g = l ++ r →
      (r.foldl (turn bad c P g) (l.foldl (turn bad c P g) X)).S.U k j i = (l.foldl (turn bad c P g) X).S.U k j i := by
    intro r
    induction r with
    | nil => intro l _; rfl
    | cons w r ih =>
      intro l hl
      have h1 := ih (l ++ [w]) (by rw [hl]; simp)
      rw [List.foldl_append, List.foldl_cons, List.foldl_nil] at h1
      rw [List.foldl_cons, h1]
      unfold turn
      split_ifs with hb
      · exact fix_far (hn w ⟨l, r, hl, hb⟩)
      · rfl
  exact key (zones g) [] rfl

/-- **C59.** If no zone is bad, Step 14 does nothing. -/
theorem fofc_idle {c : Coef ℝ} {P : Pot} {g : Rng} {X : Fx ns} {bad : Cons ℝ ns → Bool}
    (hn : ∀ k j i, InGrid g k j i → bad (X.S.U k j i) = false) : step14 bad c P g X = X := by
  have key : ∀ l : List (ℤ × ℤ × ℤ), (∀ z ∈ l, z ∈ zones g) → l.foldl (turn bad c P g) X = X := by
    intro l
    induction l with
    | nil => intro _; rfl
    | cons z l ih =>
      intro h
      have hz := hn z.1 z.2.1 z.2.2 (mem_zones.1 (h z List.mem_cons_self))
      rw [List.foldl_cons]
      have : turn bad c P g X z = X := by unfold turn; rw [hz]; rfl
      rw [this]
      exact ih fun w hw => h w (List.mem_cons_of_mem _ hw)
  exact key _ fun _ h => h

/-! ## The whole step -/

/-- Summed over the Grid the step with first-order flux correction conserves what the step without it conserves. -/
theorem fofc_step_conserves {W : Type} (M : Method ℝ W ns) (c : Coef ℝ) {g : Rng} {n1 n2 n3 : ℕ} (hg : Size g n1 n2 n3) (S : St ℝ ns)
    (J : Work ℝ W ns) (Q : Fx ns) (bad : Cons ℝ ns → Bool) (v : CVar ns) :
    zsum n1 n2 n3 g.is g.js g.ks (fun k j i => v.of ((step14 bad c noPot g (afterStep13 M c g S J Q)).S.U k j i)) =
      zsum n1 n2 n3 g.is g.js g.ks (fun k j i => v.of ((integrate M c g S J).U k j i)) :=
  fofc_conserves hg (after_made M c g S J Q) bad v (.inr rfl)

/-- The whole step with first-order flux correction leaves the divergence of the field of every active zone unchanged. -/
theorem fofc_step_divB {W : Type} (M : Method ℝ W ns) (dt dx1 dx2 dx3 : ℝ) (g : Rng) (S : St ℝ ns)
    (J : Work ℝ W ns) (Q : Fx ns) (bad : Cons ℝ ns → Bool) {k j i : ℤ} (hz : InGrid g k j i) :
    divB dx1 dx2 dx3 (step14 bad ⟨dt/dx1, dt/dx2, dt/dx3⟩ noPot g (afterStep13 M ⟨dt/dx1, dt/dx2, dt/dx3⟩ g S J Q)).S k j i =
      divB dx1 dx2 dx3 S k j i :=
  fofc_divB (after_made M _ g S J Q) bad hz

/-! ## What does not hold -/

/-- A flux of mass only. -/
noncomputable def mass (x : ℝ) : Cons1 ℝ 0 := ⟨x, 0, 0, 0, 0, 0, 0, fun _ => 0⟩

/-- Zones of density 1 at rest. -/
noncomputable def still : St ℝ 0 := ⟨fun _ _ _ => ⟨1, 0, 0, 0, 1, 0, 0, 0, fun _ => 0⟩, fun _ _ _ => 0, fun _ _ _ => 0, fun _ _ _ => 0⟩

/-- `dt/dx1 = 1`. -/
noncomputable def unit1 : Coef ℝ := ⟨1, 0, 0⟩

/-- The Grid after a step with the given second-order fluxes of mass along x1; the first-order ones are zero. -/
noncomputable def row (g : Rng) (f : Arr ℝ) : Fx 0 where
  S := update unit1 g still (fun k j i => mass (f k j i)) (fun _ _ _ => mass 0) (fun _ _ _ => mass 0) (fun _ _ _ => 0) (fun _ _ _ => 0) (fun _ _ _ => 0)
  F1 := fun k j i => mass (f k j i)
  F2 := fun _ _ _ => mass 0
  F3 := fun _ _ _ => mass 0
  e1 := fun _ _ _ => 0
  e2 := fun _ _ _ => 0
  e3 := fun _ _ _ => 0
  P1 := fun _ _ _ => mass 0
  P2 := fun _ _ _ => mass 0
  P3 := fun _ _ _ => mass 0
  p1 := fun _ _ _ => 0
  p2 := fun _ _ _ => 0
  p3 := fun _ _ _ => 0

/-- Density below zero. -/
noncomputable def neg (u : Cons ℝ 0) : Bool := decide (u.d < 0)

theorem row_made (g : Rng) (f : Arr ℝ) : Made unit1 noPot g still (row g f) := by
  constructor
  · intro k j i _
    simp only [noPot_work, sub_zero]
    rfl
  all_goals intro _ _ _ _ _ _ _ _ _; rfl

theorem made_d {g : Rng} {X : Fx 0} (h : Made unit1 noPot g still X) {k j i : ℤ} (hz : InGrid g k j i) :
    (X.S.U k j i).d = 1 - ((X.F1 k j (i+1)).d - (X.F1 k j i).d) := by
  have e := congrArg Cons.d (h.U k j i hz)
  have e2 := update_of unit1 g still X.F1 X.F2 X.F3 X.e1 X.e2 X.e3 .d hz
  simp only [CVar.of, CVar.flux1, CVar.flux2, CVar.flux3, unit1, still] at e2
  rw [e]
  dsimp only
  rw [show (update unit1 g still X.F1 X.F2 X.F3 X.e1 X.e2 X.e3).U k j i = (update ⟨1, 0, 0⟩ g ⟨fun _ _ _ => ⟨1, 0, 0, 0, 1, 0, 0, 0, fun _ => 0⟩,
    fun _ _ _ => 0, fun _ _ _ => 0, fun _ _ _ => 0⟩ X.F1 X.F2 X.F3 X.e1 X.e2 X.e3).U k j i from rfl, e2]
  ring

/-- With no fluxes of the first order every zone keeps density 1. -/
theorem row_first (g : Rng) (f : Arr ℝ) {k j i : ℤ} (hz : InGrid g k j i) :
    ((update unit1 g still (row g f).P1 (row g f).P2 (row g f).P3 (row g f).p1 (row g f).p2 (row g f).p3).U k j i).d = 1 := by
  have e2 := update_of unit1 g still (row g f).P1 (row g f).P2 (row g f).P3 (row g f).p1 (row g f).p2 (row g f).p3 .d hz
  refine e2.trans ?_
  simp [CVar.of, CVar.flux1, CVar.flux2, CVar.flux3, row, mass, still]

/-- The density of a zone after one zone of the row has been fixed. -/
theorem row_fix {g : Rng} (f : Arr ℝ) {m i : ℤ} (hz : InGrid g 0 0 i) :
    ((fixCell unit1 noPot g (row g f) 0 0 m).S.U 0 0 i).d =
      1 - ((if i + 1 = m ∧ m ≠ g.is ∨ i + 1 = m + 1 ∧ m ≠ g.ie then 0 else f 0 0 (i+1)) - (if i = m ∧ m ≠ g.is ∨ i = m + 1 ∧ m ≠ g.ie then 0 else f 0 0 i)) := by
  rw [made_d (fix_made (row_made g f) 0 0 m) hz, fix_F1, fix_F1]
  simp only [true_and]
  congr 2 <;> split_ifs <;> rfl

/-- Five zones in a row. -/
def five : Rng := ⟨0, 4, 0, 0, 0, 0, 4⟩

/-- The fluxes of the counterexample: zone 2 gets negative, zone 1 does not. -/
noncomputable def flow : Arr ℝ := fun _ _ i => if i = 1 then -2 else if i = 2 then -3/2 else 0

theorem five_zones : zones five = [(0, 0, 0), (0, 0, 1), (0, 0, 2), (0, 0, 3), (0, 0, 4)] := by decide

theorem in_five {i : ℤ} (h : 0 ≤ i ∧ i ≤ 4) : InGrid five 0 0 i := by
  unfold InGrid five; exact ⟨⟨le_refl _, le_refl _⟩, ⟨le_refl _, le_refl _⟩, h⟩

theorem flow_step : step14 neg unit1 noPot five (row five flow) = fixCell unit1 noPot five (row five flow) 0 0 2 := by
  have d0 : ∀ i, 0 ≤ i ∧ i ≤ 4 → ((row five flow).S.U 0 0 i).d = 1 - (flow 0 0 (i+1) - flow 0 0 i) := fun i hi => made_d (row_made five flow) (in_five hi)
  have d1 : ∀ i : ℤ, 0 ≤ i ∧ i ≤ 4 → _ := fun i hi => row_fix (g := five) flow (m := 2) (in_five hi)
  have t0 : turn neg unit1 noPot five (row five flow) (0, 0, 0) = row five flow := by
    unfold turn neg; dsimp only; rw [d0 0 (by norm_num)]; norm_num [flow]
  have t1 : turn neg unit1 noPot five (row five flow) (0, 0, 1) = row five flow := by
    unfold turn neg; dsimp only; rw [d0 1 (by norm_num)]; norm_num [flow]
  have t2 : turn neg unit1 noPot five (row five flow) (0, 0, 2) = fixCell unit1 noPot five (row five flow) 0 0 2 := by
    unfold turn neg; dsimp only; rw [d0 2 (by norm_num)]; norm_num [flow]
  have t3 : turn neg unit1 noPot five (fixCell unit1 noPot five (row five flow) 0 0 2) (0, 0, 3) = fixCell unit1 noPot five (row five flow) 0 0 2 := by
    unfold turn neg; dsimp only; rw [d1 3 (by norm_num)]; norm_num [flow]
  have t4 : turn neg unit1 noPot five (fixCell unit1 noPot five (row five flow) 0 0 2) (0, 0, 4) = fixCell unit1 noPot five (row five flow) 0 0 2 := by
    unfold turn neg; dsimp only; rw [d1 4 (by norm_num)]; norm_num [flow]
  unfold step14
  rw [five_zones]
  simp only [List.foldl_cons, List.foldl_nil, t0, t1, t2, t3, t4]

/-- **C59 does not hold in this form:** that Step 14 leaves no zone with negative density when the first-order fluxes would leave none.
Zones are looked at once, in order; fixing one can make an earlier one negative. -/
theorem fofc_positive_false : ¬ ∀ (c : Coef ℝ) (g : Rng) (S0 : St ℝ 0) (X : Fx 0), Made c noPot g S0 X →
    (∀ k j i, InGrid g k j i → 0 < ((update c g S0 X.P1 X.P2 X.P3 X.p1 X.p2 X.p3).U k j i).d) →
    ∀ k j i, InGrid g k j i → 0 ≤ ((step14 neg c noPot g X).S.U k j i).d := by
  intro h
  have e := h unit1 five still (row five flow) (row_made five flow) (fun k j i hz => by rw [row_first five flow hz]; norm_num)
    0 0 1 (in_five (by norm_num))
  rw [flow_step, row_fix flow (in_five (by norm_num))] at e
  norm_num [flow, five] at e

/-- The left two zones of the row on a Grid of their own. -/
def two : Rng := ⟨0, 1, 0, 0, 0, 0, 4⟩

/-- Fluxes that empty zone 1. -/
noncomputable def flow2 : Arr ℝ := fun _ _ i => if i = 2 then 2 else 0

theorem two_zones : zones two = [(0, 0, 0), (0, 0, 1)] := by decide

theorem in_two {i : ℤ} (h : 0 ≤ i ∧ i ≤ 1) : InGrid two 0 0 i := by
  unfold InGrid two; exact ⟨⟨le_refl _, le_refl _⟩, ⟨le_refl _, le_refl _⟩, h⟩

theorem flow2_two : step14 neg unit1 noPot two (row two flow2) = fixCell unit1 noPot two (row two flow2) 0 0 1 := by
  have d0 : ∀ i, 0 ≤ i ∧ i ≤ 1 → ((row two flow2).S.U 0 0 i).d = 1 - (flow2 0 0 (i+1) - flow2 0 0 i) := fun i hi => made_d (row_made two flow2) (in_two hi)
  have t0 : turn neg unit1 noPot two (row two flow2) (0, 0, 0) = row two flow2 := by
    unfold turn neg; dsimp only; rw [d0 0 (by norm_num)]; norm_num [flow2]
  have t1 : turn neg unit1 noPot two (row two flow2) (0, 0, 1) = fixCell unit1 noPot two (row two flow2) 0 0 1 := by
    unfold turn neg; dsimp only; rw [d0 1 (by norm_num)]; norm_num [flow2]
  unfold step14
  rw [two_zones]
  simp only [List.foldl_cons, List.foldl_nil, t0, t1]

theorem flow2_five : step14 neg unit1 noPot five (row five flow2) = fixCell unit1 noPot five (row five flow2) 0 0 1 := by
  have d0 : ∀ i, 0 ≤ i ∧ i ≤ 4 → ((row five flow2).S.U 0 0 i).d = 1 - (flow2 0 0 (i+1) - flow2 0 0 i) := fun i hi => made_d (row_made five flow2) (in_five hi)
  have d1 : ∀ i : ℤ, 0 ≤ i ∧ i ≤ 4 → _ := fun i hi => row_fix (g := five) flow2 (m := 1) (in_five hi)
  have t0 : turn neg unit1 noPot five (row five flow2) (0, 0, 0) = row five flow2 := by
    unfold turn neg; dsimp only; rw [d0 0 (by norm_num)]; norm_num [flow2]
  have t1 : turn neg unit1 noPot five (row five flow2) (0, 0, 1) = fixCell unit1 noPot five (row five flow2) 0 0 1 := by
    unfold turn neg; dsimp only; rw [d0 1 (by norm_num)]; norm_num [flow2]
  have t2 : turn neg unit1 noPot five (fixCell unit1 noPot five (row five flow2) 0 0 1) (0, 0, 2) = fixCell unit1 noPot five (row five flow2) 0 0 1 := by
    unfold turn neg; dsimp only; rw [d1 2 (by norm_num)]; norm_num [flow2, five]
  have t3 : turn neg unit1 noPot five (fixCell unit1 noPot five (row five flow2) 0 0 1) (0, 0, 3) = fixCell unit1 noPot five (row five flow2) 0 0 1 := by
    unfold turn neg; dsimp only; rw [d1 3 (by norm_num)]; norm_num [flow2]
  have t4 : turn neg unit1 noPot five (fixCell unit1 noPot five (row five flow2) 0 0 1) (0, 0, 4) = fixCell unit1 noPot five (row five flow2) 0 0 1 := by
    unfold turn neg; dsimp only; rw [d1 4 (by norm_num)]; norm_num [flow2]
  unfold step14
  rw [five_zones]
  simp only [List.foldl_cons, List.foldl_nil, t0, t1, t2, t3, t4]

/-- **C59 does not hold in this form:** that the result is the same however the Domain is divided into Grids.  `FixCell` keeps the
second-order fluxes on the boundary of a Grid; a zone there stays negative that is mended where it lies in the middle of one. -/
theorem fofc_split_false : ¬ ∀ (c : Coef ℝ) (g g' : Rng) (S0 : St ℝ 0) (X X' : Fx 0), Made c noPot g S0 X → Made c noPot g' S0 X' →
    X.F1 = X'.F1 → X.F2 = X'.F2 → X.F3 = X'.F3 → X.P1 = X'.P1 → X.P2 = X'.P2 → X.P3 = X'.P3 →
    ∀ k j i, InGrid g k j i → InGrid g' k j i → ((step14 neg c noPot g X).S.U k j i).d = ((step14 neg c noPot g' X').S.U k j i).d := by
  intro h
  have e := h unit1 five two still (row five flow2) (row two flow2) (row_made _ _) (row_made _ _) rfl rfl rfl rfl rfl rfl 0 0 1
    (in_five (by norm_num)) (in_two (by norm_num))
  rw [flow2_five, flow2_two, row_fix flow2 (in_five (by norm_num)), row_fix flow2 (in_two (by norm_num))] at e
  norm_num [flow2, five, two] at e

/-! ## Non-vacuity -/

/-- A cube of 27 zones. -/
def cube : Rng := ⟨0, 2, 0, 2, 0, 2, 4⟩

/-- A flux that empties the zone in the middle. -/
noncomputable def jet : Arr ℝ := fun k j i => if k = 1 ∧ j = 1 ∧ i = 2 then 2 else 0

theorem cube_bad : FoundBad neg unit1 noPot cube (row cube jet) (1, 1, 1) := by
  refine ⟨(zones cube).take 13, (zones cube).drop 14, by decide, ?_⟩
  have d0 : ∀ k j i, InGrid cube k j i → ((row cube jet).S.U k j i).d = 1 - (jet k j (i+1) - jet k j i) :=
    fun k j i hz => made_d (row_made cube jet) hz
  have key : ∀ l : List (ℤ × ℤ × ℤ), (∀ z ∈ l, z ∈ zones cube ∧ z ≠ (1, 1, 1)) → l.foldl (turn neg unit1 noPot cube) (row cube jet) = row cube jet := by
    intro l
    induction l with
    | nil => intro _; rfl
    | cons z l ih =>
      intro h
      obtain ⟨k, j, i⟩ := z
      obtain ⟨h1, h2⟩ := h (k, j, i) List.mem_cons_self
      have h1 := mem_zones.1 h1
      have t : turn neg unit1 noPot cube (row cube jet) (k, j, i) = row cube jet := by
        unfold turn neg
        dsimp only
        rw [d0 k j i h1, if_neg]
        have : ¬(k = 1 ∧ j = 1 ∧ i + 1 = 2) := fun e => h2 (by obtain ⟨rfl, rfl, e⟩ := e; rw [show i = 1 by omega])
        unfold jet
        rw [if_neg this]
        split_ifs <;> norm_num
      rw [List.foldl_cons, t]
      exact ih fun w hw => h w (List.mem_cons_of_mem _ hw)
  rw [key _ (by decide)]
  unfold neg
  dsimp only
  rw [d0 1 1 1 ⟨⟨by decide, by decide⟩, ⟨by decide, by decide⟩, by decide, by decide⟩]
  norm_num [jet]

/-- A zone away from the boundary is found bad, with density -1, and ends with the density 1 of the first-order step. -/
example : Inner cube 1 1 1 ∧ ((row cube jet).S.U 1 1 1).d = -1 ∧ ((step14 neg unit1 noPot cube (row cube jet)).S.U 1 1 1).d = 1 := by
  have hz : InGrid cube 1 1 1 := ⟨⟨by decide, by decide⟩, ⟨by decide, by decide⟩, by decide, by decide⟩
  have hi : Inner cube 1 1 1 := ⟨⟨by decide, by decide⟩, ⟨by decide, by decide⟩, by decide, by decide⟩
  refine ⟨hi, ?_, ?_⟩
  · rw [made_d (row_made cube jet) hz]; norm_num [row, mass, jet]
  · rw [fofc_first_order (row_made cube jet) hi cube_bad]
    exact row_first cube jet hz

/-- The totals of the cube before and after Step 14. -/
example : zsum 3 3 3 0 0 0 (fun k j i => ((step14 neg unit1 noPot cube (row cube jet)).S.U k j i).d) =
    zsum 3 3 3 0 0 0 (fun k j i => ((row cube jet).S.U k j i).d) :=
  fofc_conserves (g := cube) (n1 := 3) (n2 := 3) (n3 := 3) ⟨rfl, rfl, rfl⟩ (row_made cube jet) neg .d (.inr rfl)

end Athena.Fofc
