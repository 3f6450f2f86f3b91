import Verif.Fofc.Fix3Keep

/-!
# C59 in three dimensions: first-order flux correction

Step 14 changes no total over the Grid, no divergence, and no field on the boundary of the Grid; a zone away from the boundary that is
found bad ends as the first-order step makes it; zones with no bad zone next to them are left as they were.
-/

namespace Athena.Fofc
open Athena.Vl3

variable {ns : ℕ}

/-! ## Specification -/

/-- What Step 14 is given: the step just made with the second-order fluxes, and the fluxes saved in Step 5d
(integrate_3d_vl.c:519-534; `J` are the work arrays before). -/
noncomputable def afterStep13 {W : Type} (M : Method ℝ W ns) (c : Coef ℝ) (g : Rng) (S : St ℝ ns) (J : Work ℝ W ns) (Q : Fx ns) : Fx ns where
  S := integrate M c g S J
  F1 := yFlux1 M c g S J
  F2 := yFlux2 M c g S J
  F3 := yFlux3 M c g S J
  e1 := yEmf1 M c g S J
  e2 := yEmf2 M c g S J
  e3 := yEmf3 M c g S J
  P1 := loop3 g.ks (g.ke+1) g.js (g.je+1) g.is (g.ie+1) (xFlux1 M g S J) Q.P1
  P2 := loop3 g.ks (g.ke+1) g.js (g.je+1) g.is (g.ie+1) (xFlux2 M g S J) Q.P2
  P3 := loop3 g.ks (g.ke+1) g.js (g.je+1) g.is (g.ie+1) (xFlux3 M g S J) Q.P3
  p1 := loop3 g.ks (g.ke+1) g.js (g.je+1) g.is (g.ie+1) (xEmf1 M g S J) Q.p1
  p2 := loop3 g.ks (g.ke+1) g.js (g.je+1) g.is (g.ie+1) (xEmf2 M g S J) Q.p2
  p3 := loop3 g.ks (g.ke+1) g.js (g.je+1) g.is (g.ie+1) (xEmf3 M g S J) Q.p3

/-- Zone `z` was found bad when the loop came to it. -/
def FoundBad (bad : Cons ℝ ns → Bool) (c : Coef ℝ) (P : Pot) (g : Rng) (X : Fx ns) (z : ℤ × ℤ × ℤ) : Prop :=
  ∃ l r, zones g = l ++ z :: r ∧ bad ((l.foldl (turn bad c P g) X).S.U z.1 z.2.1 z.2.2) = true

/-! ## Lemmas -/

theorem mem_span {a b x : ℤ} : x ∈ span a b ↔ a ≤ x ∧ x ≤ b := by
  unfold span
  simp only [List.mem_map, List.mem_range]
  constructor
  · rintro ⟨n, h, rfl⟩; omega
  · intro h; exact ⟨(x - a).toNat, by omega, by omega⟩

theorem mem_zones {g : Rng} {k j i : ℤ} : (k, j, i) ∈ zones g ↔ InGrid g k j i := by
  unfold zones InGrid
  simp only [List.mem_flatMap, List.mem_map, mem_span, Prod.mk.injEq]
  constructor
  · rintro ⟨a, ha, b, hb, d, hd, rfl, rfl, rfl⟩; exact ⟨ha, hb, hd⟩
  · rintro ⟨h1, h2, h3⟩; exact ⟨k, h1, j, h2, i, h3, rfl, rfl, rfl⟩

theorem noPot_work (c : Coef ℝ) (F1 F2 F3 : Arr (Cons1 ℝ ns)) (k j i : ℤ) : work c noPot F1 F2 F3 k j i = 0 := by
  simp only [work, noPot]; ring

/-- The Grid after Step 13 is what the step makes. -/
theorem after_made {W : Type} (M : Method ℝ W ns) (c : Coef ℝ) (g : Rng) (S : St ℝ ns) (J : Work ℝ W ns) (Q : Fx ns) :
    Made c noPot g S (afterStep13 M c g S J Q) := by
  constructor
  · intro k j i _
    simp only [noPot_work, sub_zero]
    rfl
  all_goals intro _ _ _ _ _ _ _ _ _; rfl

/-- An invariant of the loop. -/
theorem fold_inv {bad : Cons ℝ ns → Bool} {c : Coef ℝ} {P : Pot} {g : Rng} (I : Fx ns → Prop)
    (hI : ∀ X k j i, InGrid g k j i → I X → I (fixCell c P g X k j i)) (l : List (ℤ × ℤ × ℤ)) (hl : ∀ z ∈ l, z ∈ zones g)
    (X : Fx ns) (h : I X) : I (l.foldl (turn bad c P g) X) := by
  induction l generalizing X with
  | nil => exact h
  | cons z l ih =>
    rw [List.foldl_cons]
    refine ih (fun w hw => hl w (List.mem_cons_of_mem _ hw)) _ ?_
    unfold turn
    split_ifs
    · exact hI _ _ _ _ (mem_zones.1 (hl z List.mem_cons_self)) h
    · exact h

theorem step14_inv {bad : Cons ℝ ns → Bool} {c : Coef ℝ} {P : Pot} {g : Rng} (I : Fx ns → Prop)
    (hI : ∀ X k j i, InGrid g k j i → I X → I (fixCell c P g X k j i)) (X : Fx ns) (h : I X) : I (step14 bad c P g X) :=
  fold_inv I hI _ (fun _ h => h) X h

/-- Fluxes and electric fields on the boundary of the Grid are those of `X0`. -/
structure EdgeKept (g : Rng) (X0 X : Fx ns) : Prop where
  F1 : ∀ k j i, i = g.is ∨ i = g.ie + 1 → X.F1 k j i = X0.F1 k j i
  F2 : ∀ k j i, j = g.js ∨ j = g.je + 1 → X.F2 k j i = X0.F2 k j i
  F3 : ∀ k j i, k = g.ks ∨ k = g.ke + 1 → X.F3 k j i = X0.F3 k j i
  e1 : ∀ k j i, (j = g.js ∨ j = g.je + 1) ∨ k = g.ks ∨ k = g.ke + 1 → X.e1 k j i = X0.e1 k j i
  e2 : ∀ k j i, (i = g.is ∨ i = g.ie + 1) ∨ k = g.ks ∨ k = g.ke + 1 → X.e2 k j i = X0.e2 k j i
  e3 : ∀ k j i, (i = g.is ∨ i = g.ie + 1) ∨ j = g.js ∨ j = g.je + 1 → X.e3 k j i = X0.e3 k j i

theorem edge_kept (bad : Cons ℝ ns → Bool) (c : Coef ℝ) (P : Pot) (g : Rng) (X0 : Fx ns) : EdgeKept g X0 (step14 bad c P g X0) := by
  refine step14_inv (EdgeKept g X0) ?_ X0 ⟨fun _ _ _ _ => rfl, fun _ _ _ _ => rfl, fun _ _ _ _ => rfl, fun _ _ _ _ => rfl,
    fun _ _ _ _ => rfl, fun _ _ _ _ => rfl⟩
  rintro X k j i ⟨⟨a1, a2⟩, ⟨a3, a4⟩, a5, a6⟩ h
  constructor
  · intro k' j' i' hb; rw [fix_F1, if_neg (by omega)]; exact h.F1 _ _ _ hb
  · intro k' j' i' hb; rw [fix_F2, if_neg (by omega)]; exact h.F2 _ _ _ hb
  · intro k' j' i' hb; rw [fix_F3, if_neg (by omega)]; exact h.F3 _ _ _ hb
  · intro k' j' i' hb; rw [fix_e1, if_neg (by unfold OnB; omega)]; exact h.e1 _ _ _ hb
  · intro k' j' i' hb; rw [fix_e2, if_neg (by unfold OnB; omega)]; exact h.e2 _ _ _ hb
  · intro k' j' i' hb; rw [fix_e3, if_neg (by unfold OnB; omega)]; exact h.e3 _ _ _ hb

/-! ## Theorems -/

/-- **C59.** After Step 14 the Grid is what the step makes of the state before it with some set of fluxes and electric fields: each zone
has been changed by differences of the values on its faces, each face by those on its edges. -/
theorem fofc_made {c : Coef ℝ} {P : Pot} {g : Rng} {S0 : St ℝ ns} {X : Fx ns} (h : Made c P g S0 X) (bad : Cons ℝ ns → Bool) :
    Made c P g S0 (step14 bad c P g X) :=
  step14_inv (Made c P g S0) (fun _ _ _ _ _ h => fix_made h _ _ _) X h

/-- Those fluxes and electric fields are on each face and edge the second-order ones or the first-order ones: the second-order ones on the
boundary of the Grid. -/
theorem fofc_choice (bad : Cons ℝ ns → Bool) (c : Coef ℝ) (P : Pot) (g : Rng) (X : Fx ns) (k j i : ℤ) :
    (((step14 bad c P g X).F1 k j i = X.F1 k j i ∨ g.is < i ∧ i ≤ g.ie ∧ (step14 bad c P g X).F1 k j i = X.P1 k j i) ∧
     ((step14 bad c P g X).F2 k j i = X.F2 k j i ∨ g.js < j ∧ j ≤ g.je ∧ (step14 bad c P g X).F2 k j i = X.P2 k j i) ∧
     ((step14 bad c P g X).F3 k j i = X.F3 k j i ∨ g.ks < k ∧ k ≤ g.ke ∧ (step14 bad c P g X).F3 k j i = X.P3 k j i)) ∧
    ((step14 bad c P g X).e1 k j i = X.e1 k j i ∨ (g.js < j ∧ j ≤ g.je ∧ g.ks < k ∧ k ≤ g.ke) ∧ (step14 bad c P g X).e1 k j i = X.p1 k j i) ∧
    ((step14 bad c P g X).e2 k j i = X.e2 k j i ∨ (g.is < i ∧ i ≤ g.ie ∧ g.ks < k ∧ k ≤ g.ke) ∧ (step14 bad c P g X).e2 k j i = X.p2 k j i) ∧
    ((step14 bad c P g X).e3 k j i = X.e3 k j i ∨ (g.is < i ∧ i ≤ g.ie ∧ g.js < j ∧ j ≤ g.je) ∧ (step14 bad c P g X).e3 k j i = X.p3 k j i) := by
  have key := step14_inv (bad := bad) (c := c) (P := P) (g := g) (fun Y : Fx ns =>
    ((g.is < i ∧ i ≤ g.ie → Y.P1 k j i = X.P1 k j i) ∧ (g.js < j ∧ j ≤ g.je → Y.P2 k j i = X.P2 k j i) ∧
     (g.ks < k ∧ k ≤ g.ke → Y.P3 k j i = X.P3 k j i) ∧ (g.js < j ∧ j ≤ g.je ∧ g.ks < k ∧ k ≤ g.ke → Y.p1 k j i = X.p1 k j i) ∧
     (g.is < i ∧ i ≤ g.ie ∧ g.ks < k ∧ k ≤ g.ke → Y.p2 k j i = X.p2 k j i) ∧
     (g.is < i ∧ i ≤ g.ie ∧ g.js < j ∧ j ≤ g.je → Y.p3 k j i = X.p3 k j i)) ∧
    ((Y.F1 k j i = X.F1 k j i ∨ g.is < i ∧ i ≤ g.ie ∧ Y.F1 k j i = X.P1 k j i) ∧
     (Y.F2 k j i = X.F2 k j i ∨ g.js < j ∧ j ≤ g.je ∧ Y.F2 k j i = X.P2 k j i) ∧
     (Y.F3 k j i = X.F3 k j i ∨ g.ks < k ∧ k ≤ g.ke ∧ Y.F3 k j i = X.P3 k j i)) ∧
    (Y.e1 k j i = X.e1 k j i ∨ (g.js < j ∧ j ≤ g.je ∧ g.ks < k ∧ k ≤ g.ke) ∧ Y.e1 k j i = X.p1 k j i) ∧
    (Y.e2 k j i = X.e2 k j i ∨ (g.is < i ∧ i ≤ g.ie ∧ g.ks < k ∧ k ≤ g.ke) ∧ Y.e2 k j i = X.p2 k j i) ∧
    (Y.e3 k j i = X.e3 k j i ∨ (g.is < i ∧ i ≤ g.ie ∧ g.js < j ∧ j ≤ g.je) ∧ Y.e3 k j i = X.p3 k j i)) ?_ X
    ⟨⟨fun _ => rfl, fun _ => rfl, fun _ => rfl, fun _ => rfl, fun _ => rfl, fun _ => rfl⟩, ⟨.inl rfl, .inl rfl, .inl rfl⟩, .inl rfl, .inl rfl, .inl rfl⟩
  · exact key.2
  · rintro Y k' j' i' ⟨⟨a1, a2⟩, ⟨a3, a4⟩, a5, a6⟩ ⟨⟨p1, p2, p3, p4, p5, p6⟩, ⟨f1, f2, f3⟩, f4, f5, f6⟩
    refine ⟨⟨?_, ?_, ?_, ?_, ?_, ?_⟩, ⟨?_, ?_, ?_⟩, ?_, ?_, ?_⟩
    · intro h; rw [fix_P1, keep_P1, if_neg (by omega)]; exact p1 h
    · intro h; rw [fix_P2, keep_P2, if_neg (by omega)]; exact p2 h
    · intro h; rw [fix_P3, keep_P3, if_neg (by omega)]; exact p3 h
    · intro h; rw [fix_p1, keep_p1, if_neg (by unfold OnB; omega)]; exact p4 h
    · intro h; rw [fix_p2, keep_p2, if_neg (by unfold OnB; omega)]; exact p5 h
    · intro h; rw [fix_p3, keep_p3, if_neg (by unfold OnB; omega)]; exact p6 h
    · rw [fix_F1]; split_ifs with h
      · have : g.is < i ∧ i ≤ g.ie := by omega
        exact .inr ⟨this.1, this.2, p1 this⟩
      · exact f1
    · rw [fix_F2]; split_ifs with h
      · have : g.js < j ∧ j ≤ g.je := by omega
        exact .inr ⟨this.1, this.2, p2 this⟩
      · exact f2
    · rw [fix_F3]; split_ifs with h
      · have : g.ks < k ∧ k ≤ g.ke := by omega
        exact .inr ⟨this.1, this.2, p3 this⟩
      · exact f3
    · rw [fix_e1]; split_ifs with h
      · have : g.js < j ∧ j ≤ g.je ∧ g.ks < k ∧ k ≤ g.ke := by unfold OnB at h; omega
        exact .inr ⟨this, p4 this⟩
      · exact f4
    · rw [fix_e2]; split_ifs with h
      · have : g.is < i ∧ i ≤ g.ie ∧ g.ks < k ∧ k ≤ g.ke := by unfold OnB at h; omega
        exact .inr ⟨this, p5 this⟩
      · exact f5
    · rw [fix_e3]; split_ifs with h
      · have : g.is < i ∧ i ≤ g.ie ∧ g.js < j ∧ j ≤ g.je := by unfold OnB at h; omega
        exact .inr ⟨this, p6 this⟩
      · exact f6

/-- **C59.** Step 14 changes the total of no conserved variable over the Grid (the energy: without gravity). -/
theorem fofc_conserves {c : Coef ℝ} {P : Pot} {g : Rng} {n1 n2 n3 : ℕ} (hg : Size g n1 n2 n3) {S0 : St ℝ ns} {X : Fx ns}
    (h : Made c P g S0 X) (bad : Cons ℝ ns → Bool) (v : CVar ns) (hv : v ≠ .E ∨ P = noPot) :
    zsum n1 n2 n3 g.is g.js g.ks (fun k j i => v.of ((step14 bad c P g X).S.U k j i)) =
      zsum n1 n2 n3 g.is g.js g.ks (fun k j i => v.of (X.S.U k j i)) := by
  have hE := edge_kept bad c P g X
  have key : ∀ Y : Fx ns, Made c P g S0 Y → zsum n1 n2 n3 g.is g.js g.ks (fun k j i => v.of (Y.S.U k j i)) =
      zsum n1 n2 n3 g.is g.js g.ks (fun k j i => v.of ((update c g S0 Y.F1 Y.F2 Y.F3 Y.e1 Y.e2 Y.e3).U k j i)) := by
    intro Y hY
    refine zsum_congr fun k j i a1 a2 a3 a4 a5 a6 => ?_
    have := hg.h1; have := hg.h2; have := hg.h3
    rw [hY.U k j i ⟨⟨a1, by omega⟩, ⟨a3, by omega⟩, a5, by omega⟩]
    rcases hv with hv | rfl
    · cases v <;> first | exact absurd rfl hv | rfl
    · simp only [noPot_work, sub_zero]
  rw [key _ h, key _ (fofc_made h bad), update_conserves c hg, update_conserves c hg]
  have f1 : ∀ i, i = g.is ∨ i = g.ie + 1 → fsum1 n2 n3 g.js g.ks i (fun k j i => v.flux1 ((step14 bad c P g X).F1 k j i)) =
      fsum1 n2 n3 g.js g.ks i (fun k j i => v.flux1 (X.F1 k j i)) := by
    intro i hi; unfold fsum1; simp only [hE.F1 _ _ _ hi]
  have f2 : ∀ j, j = g.js ∨ j = g.je + 1 → fsum2 n1 n3 g.is g.ks j (fun k j i => v.flux2 ((step14 bad c P g X).F2 k j i)) =
      fsum2 n1 n3 g.is g.ks j (fun k j i => v.flux2 (X.F2 k j i)) := by
    intro j hj; unfold fsum2; simp only [hE.F2 _ _ _ hj]
  have f3 : ∀ k, k = g.ks ∨ k = g.ke + 1 → fsum3 n1 n2 g.is g.js k (fun k j i => v.flux3 ((step14 bad c P g X).F3 k j i)) =
      fsum3 n1 n2 g.is g.js k (fun k j i => v.flux3 (X.F3 k j i)) := by
    intro k hk; unfold fsum3; simp only [hE.F3 _ _ _ hk]
  rw [f1 _ (.inl rfl), f1 _ (.inr rfl), f2 _ (.inl rfl), f2 _ (.inr rfl), f3 _ (.inl rfl), f3 _ (.inr rfl)]

/-- **C59.** Step 14 leaves the divergence of the interface fields of every active zone what it was before the step. -/
theorem fofc_divB {dt dx1 dx2 dx3 : ℝ} {P : Pot} {g : Rng} {S0 : St ℝ ns} {X : Fx ns} (h : Made ⟨dt/dx1, dt/dx2, dt/dx3⟩ P g S0 X)
    (bad : Cons ℝ ns → Bool) {k j i : ℤ} (hz : InGrid g k j i) :
    divB dx1 dx2 dx3 (step14 bad ⟨dt/dx1, dt/dx2, dt/dx3⟩ P g X).S k j i = divB dx1 dx2 dx3 S0 k j i := by
  have hM := fofc_made h bad
  obtain ⟨⟨h1, h2⟩, ⟨h3, h4⟩, h5, h6⟩ := hz
  rw [← update_divB dt dx1 dx2 dx3 g S0 (step14 bad _ P g X).F1 (step14 bad _ P g X).F2 (step14 bad _ P g X).F3 (step14 bad _ P g X).e1
    (step14 bad _ P g X).e2 (step14 bad _ P g X).e3 h1 h2 h3 h4 h5 h6]
  unfold divB
  rw [hM.B1 _ _ _ h1 h2 h3 h4 (by omega) (by omega), hM.B1 _ _ _ h1 h2 h3 h4 h5 (by omega),
    hM.B2 _ _ _ h1 h2 (by omega) (by omega) h5 h6, hM.B2 _ _ _ h1 h2 h3 (by omega) h5 h6,
    hM.B3 _ _ _ (by omega) (by omega) h3 h4 h5 h6, hM.B3 _ _ _ h1 (by omega) h3 h4 h5 h6]

/-- The fields of active zones stay the means of those on their faces. -/
theorem fofc_mean {c : Coef ℝ} {P : Pot} {g : Rng} {S0 : St ℝ ns} {X : Fx ns} (h : Made c P g S0 X)
    (bad : Cons ℝ ns → Bool) {k j i : ℤ} (hz : InGrid g k j i) :
    ((step14 bad c P g X).S.U k j i).B1c = ((step14 bad c P g X).S.B1i k j i + (step14 bad c P g X).S.B1i k j (i+1)) / 2 ∧
    ((step14 bad c P g X).S.U k j i).B2c = ((step14 bad c P g X).S.B2i k j i + (step14 bad c P g X).S.B2i k (j+1) i) / 2 ∧
    ((step14 bad c P g X).S.U k j i).B3c = ((step14 bad c P g X).S.B3i k j i + (step14 bad c P g X).S.B3i (k+1) j i) / 2 := by
  have hM := fofc_made h bad
  have hz' := hz
  obtain ⟨⟨h1, h2⟩, ⟨h3, h4⟩, h5, h6⟩ := hz'
  rw [hM.B1 k j (i+1) h1 h2 h3 h4 (by omega) (by omega), hM.B1 k j i h1 h2 h3 h4 h5 (by omega),
    hM.B2 k (j+1) i h1 h2 (by omega) (by omega) h5 h6, hM.B2 k j i h1 h2 h3 (by omega) h5 h6,
    hM.B3 (k+1) j i (by omega) (by omega) h3 h4 h5 h6, hM.B3 k j i h1 (by omega) h3 h4 h5 h6, hM.U _ _ _ hz]
  obtain ⟨b1, b2, b3⟩ := update_Bc c g S0 (step14 bad c P g X).F1 (step14 bad c P g X).F2 (step14 bad c P g X).F3 (step14 bad c P g X).e1
    (step14 bad c P g X).e2 (step14 bad c P g X).e3 hz
  refine ⟨?_, ?_, ?_⟩
  · refine b1.trans ?_; ring
  · refine b2.trans ?_; ring
  · refine b3.trans ?_; ring

/-- **C59.** Step 14 changes no field on the boundary of the Grid, so that Grids that share it still agree. -/
theorem fofc_faces {c : Coef ℝ} {P : Pot} {g : Rng} {S0 : St ℝ ns} {X : Fx ns} (h : Made c P g S0 X)
    (bad : Cons ℝ ns → Bool) {k j i : ℤ} :
    (g.ks ≤ k ∧ k ≤ g.ke → g.js ≤ j ∧ j ≤ g.je → g.is ≤ g.ie → i = g.is ∨ i = g.ie + 1 → (step14 bad c P g X).S.B1i k j i = X.S.B1i k j i) ∧
    (g.ks ≤ k ∧ k ≤ g.ke → g.is ≤ i ∧ i ≤ g.ie → g.js ≤ g.je → j = g.js ∨ j = g.je + 1 → (step14 bad c P g X).S.B2i k j i = X.S.B2i k j i) ∧
    (g.js ≤ j ∧ j ≤ g.je → g.is ≤ i ∧ i ≤ g.ie → g.ks ≤ g.ke → k = g.ks ∨ k = g.ke + 1 → (step14 bad c P g X).S.B3i k j i = X.S.B3i k j i) := by
  have hM := fofc_made h bad
  have hE := edge_kept bad c P g X
  refine ⟨fun hk hj ho hi => ?_, fun hk hi ho hj => ?_, fun hj hi ho hk => ?_⟩
  · rw [hM.B1 _ _ _ hk.1 hk.2 hj.1 hj.2 (by omega) (by omega), h.B1 _ _ _ hk.1 hk.2 hj.1 hj.2 (by omega) (by omega),
      upd_B1 _ _ _ _ _ _ _ _ _ hk.1 hk.2 hj.1 hj.2 (by omega) (by omega), upd_B1 _ _ _ _ _ _ _ _ _ hk.1 hk.2 hj.1 hj.2 (by omega) (by omega)]
    simp only [ct1, hE.e2 _ _ _ (.inl hi), hE.e3 _ _ _ (.inl hi)]
  · rw [hM.B2 _ _ _ hk.1 hk.2 (by omega) (by omega) hi.1 hi.2, h.B2 _ _ _ hk.1 hk.2 (by omega) (by omega) hi.1 hi.2,
      upd_B2 _ _ _ _ _ _ _ _ _ hk.1 hk.2 (by omega) (by omega) hi.1 hi.2, upd_B2 _ _ _ _ _ _ _ _ _ hk.1 hk.2 (by omega) (by omega) hi.1 hi.2]
    simp only [ct2, hE.e1 _ _ _ (.inl hj), hE.e3 _ _ _ (.inr hj)]
  · rw [hM.B3 _ _ _ (by omega) (by omega) hj.1 hj.2 hi.1 hi.2, h.B3 _ _ _ (by omega) (by omega) hj.1 hj.2 hi.1 hi.2,
      upd_B3 _ _ _ _ _ _ _ _ _ (by omega) (by omega) hj.1 hj.2 hi.1 hi.2, upd_B3 _ _ _ _ _ _ _ _ _ (by omega) (by omega) hj.1 hj.2 hi.1 hi.2]
    simp only [ct3, hE.e1 _ _ _ (.inr hk), hE.e2 _ _ _ (.inr hk)]

end Athena.Fofc
