import Verif.Fofc.Fix2Made

/-!
# C59 in two dimensions

The plane stays what the step makes of the fluxes at hand, so the divergence is kept, and every zone found bad ends as the first-order step
makes it.  But fluxes through the boundary of the Grid are replaced as well, so that totals are kept only while no zone at the boundary is
found bad.
-/

namespace Athena.Fofc
open Athena.Vl3
open Athena.Gen (Pla updV2)

variable {ns : ℕ}

/-! ## Specification -/

/-- Zone `z` was found bad when the loop came to it. -/
def FoundBad2 (bad : Cons ℝ ns → Bool) (q1 q2 : ℝ) (P : Pot2) (g : Rng) (X : Fy ns) (z : ℤ × ℤ) : Prop :=
  ∃ l r, zones2 g = l ++ z :: r ∧ bad ((l.foldl (turn2 bad q1 q2 P g) X).U z.1 z.2) = true

/-- Divergence of the interface fields of a zone of the plane. -/
noncomputable def divB2 (dx1 dx2 : ℝ) (B1 B2 : Pla ℝ) (j i : ℤ) : ℝ := (B1 j (i+1) - B1 j i) / dx1 + (B2 (j+1) i - B2 j i) / dx2

/-- The zone touches the boundary of the Grid. -/
def AtEdge (g : Rng) (z : ℤ × ℤ) : Prop := (z.1 = g.js ∨ z.1 = g.je) ∨ z.2 = g.is ∨ z.2 = g.ie

/-- The Grid is periodic: what passes one end enters at the other, in both orders. -/
structure Around (g : Rng) (X : Fy ns) : Prop where
  F1 : ∀ j, X.F1 j g.is = X.F1 j (g.ie+1)
  F2 : ∀ i, X.F2 g.js i = X.F2 (g.je+1) i
  P1 : ∀ j, X.P1 j g.is = X.P1 j (g.ie+1)
  P2 : ∀ i, X.P2 g.js i = X.P2 (g.je+1) i
  e1 : ∀ j, X.e j g.is = X.e j (g.ie+1)
  e2 : ∀ i, X.e g.js i = X.e (g.je+1) i
  p1 : ∀ j, X.p j g.is = X.p j (g.ie+1)
  p2 : ∀ i, X.p g.js i = X.p (g.je+1) i

/-- What Step 14 is given: the plane after the step, and the fluxes saved in Step 5d (integrate_2d_vl.c:385-396). -/
noncomputable def afterStep13p (M : Athena.Gen.Funs ℝ ns) (q : Athena.Gen.Step ℝ) (g : Rng) (S : St ℝ ns) (J : Athena.Gen.WorkV2 ℝ ns)
    (Q : Fy ns) : Fy ns where
  U := (Athena.Gen.vl2 M q g J S).U g.ks
  B1 := (Athena.Gen.vl2 M q g J S).B1i g.ks
  B2 := (Athena.Gen.vl2 M q g J S).B2i g.ks
  B3 := (Athena.Gen.vl2 M q g J S).B3i g.ks
  F1 := Athena.Gen.p2G1 M q g (Athena.Gen.plane S g.ks) J
  F2 := Athena.Gen.p2G2 M q g (Athena.Gen.plane S g.ks) J
  e := Athena.Gen.p2Emf' M q g (Athena.Gen.plane S g.ks) J
  P1 := Athena.Gen.loop2 g.js (g.je+1) g.is (g.ie+1) (Athena.Gen.p2F1 M g (Athena.Gen.plane S g.ks) J) Q.P1
  P2 := Athena.Gen.loop2 g.js (g.je+1) g.is (g.ie+1) (Athena.Gen.p2F2 M g (Athena.Gen.plane S g.ks) J) Q.P2
  p := Athena.Gen.loop2 g.js (g.je+1) g.is (g.ie+1) (Athena.Gen.p2Emf M g (Athena.Gen.plane S g.ks) J) Q.p

/-! ## Lemmas -/

/-- The plane after Step 13 is what the step makes. -/
theorem after2_made (M : Athena.Gen.Funs ℝ ns) (q : Athena.Gen.Step ℝ) (g : Rng) (S : St ℝ ns) (J : Athena.Gen.WorkV2 ℝ ns) (Q : Fy ns) :
    Made2 q noPot2 g S (afterStep13p M q g S J Q) := by
  constructor
  · intro j i _
    simp only [work2, noPot2, sub_zero, mul_zero, add_zero]
    rfl
  · intro _ _ _ _ _ _; rfl
  · intro _ _ _ _ _ _; rfl
  · intro _ _ _; rfl

theorem mem_zones2 {g : Rng} {j i : ℤ} : (j, i) ∈ zones2 g ↔ InGrid2 g j i := by
  unfold zones2 InGrid2
  simp only [List.mem_flatMap, List.mem_map, mem_span, Prod.mk.injEq]
  constructor
  · rintro ⟨a, ha, b, hb, rfl, rfl⟩; exact ⟨ha, hb⟩
  · rintro ⟨h1, h2⟩; exact ⟨j, h1, i, h2, rfl, rfl⟩

section Inv
variable {bad : Cons ℝ ns → Bool} {q1 q2 : ℝ} {P : Pot2} {g : Rng}

theorem fold2_inv {X : Fy ns} (I : Fy ns → Prop) (hI : ∀ Y j i, FoundBad2 bad q1 q2 P g X (j, i) → I Y → I (fixCell2 q1 q2 P g Y j i))
    (r l : List (ℤ × ℤ)) (hl : zones2 g = l ++ r) (h : I (l.foldl (turn2 bad q1 q2 P g) X)) :
    I ((l ++ r).foldl (turn2 bad q1 q2 P g) X) := by
  induction r generalizing l with
  | nil => rwa [List.append_nil]
  | cons z r ih =>
    rw [show l ++ z :: r = (l ++ [z]) ++ r by simp] at hl ⊢
    refine ih _ hl ?_
    rw [List.foldl_append, List.foldl_cons, List.foldl_nil]
    unfold turn2
    split_ifs with hb
    · exact hI _ _ _ ⟨l, r, by rw [hl]; simp, hb⟩ h
    · exact h

theorem step14p_inv {X : Fy ns} (I : Fy ns → Prop) (hI : ∀ Y j i, FoundBad2 bad q1 q2 P g X (j, i) → I Y → I (fixCell2 q1 q2 P g Y j i))
    (h : I X) : I (step14p bad q1 q2 P g X) := by
  have := fold2_inv I hI (zones2 g) [] rfl h
  exact this

theorem found_in {X : Fy ns} {z : ℤ × ℤ} (h : FoundBad2 bad q1 q2 P g X z) : InGrid2 g z.1 z.2 := by
  obtain ⟨l, r, e, -⟩ := h
  exact mem_zones2.1 (by rw [e]; simp)

end Inv

section Values
variable (q1 q2 : ℝ) (P : Pot2) (g : Rng) (X : Fy ns) (j i j' i' : ℤ)

theorem spread2_P : (spreadCorr2 q1 q2 P g (difs2 X j i) j i X).P1 = X.P1 ∧ (spreadCorr2 q1 q2 P g (difs2 X j i) j i X).P2 = X.P2 ∧
    (spreadCorr2 q1 q2 P g (difs2 X j i) j i X).p = X.p := by
  simp only [spreadCorr2]
  split_ifs <;> exact ⟨rfl, rfl, rfl⟩

theorem fix2_P1 : (fixCell2 q1 q2 P g X j i).P1 = X.P1 := (spread2_P q1 q2 P g X j i).1
theorem fix2_P2 : (fixCell2 q1 q2 P g X j i).P2 = X.P2 := (spread2_P q1 q2 P g X j i).2.1
theorem fix2_p : (fixCell2 q1 q2 P g X j i).p = X.p := (spread2_P q1 q2 P g X j i).2.2

theorem fix2_F1 : (fixCell2 q1 q2 P g X j i).F1 j' i' = if j' = j ∧ (i' = i ∨ i' = i+1) then X.P1 j' i' else X.F1 j' i' := by
  simp only [fixCell2, set2]
  split_ifs with a b c d <;> first | omega | rfl | (obtain ⟨rfl, rfl⟩ := a; rfl) | (obtain ⟨rfl, rfl⟩ := c; rfl)

theorem fix2_F2 : (fixCell2 q1 q2 P g X j i).F2 j' i' = if i' = i ∧ (j' = j ∨ j' = j+1) then X.P2 j' i' else X.F2 j' i' := by
  simp only [fixCell2, set2]
  split_ifs with a b c d <;> first | omega | rfl | (obtain ⟨rfl, rfl⟩ := a; rfl) | (obtain ⟨rfl, rfl⟩ := c; rfl)

theorem fix2_e : (fixCell2 q1 q2 P g X j i).e j' i' = if (j' = j ∨ j' = j+1) ∧ (i' = i ∨ i' = i+1) then X.p j' i' else X.e j' i' := by
  change setCorner X.e X.p j i j' i' = _
  simp only [setCorner, set2]
  by_cases a : j' = j
  · by_cases c : i' = i
    · subst a; subst c; simp
    · by_cases d : i' = i + 1
      · subst a; subst d; simp
      · simp [c, d]
  · by_cases b : j' = j + 1
    · by_cases c : i' = i
      · subst b; subst c; simp
      · by_cases d : i' = i + 1
        · subst b; subst d; simp
        · simp [c, d]
    · simp [a, b]

end Values

/-! ## Theorems -/

/-- **C59 in 2D.** After Step 14 the plane is what the step makes of the state before it with some set of fluxes and electric fields. -/
theorem fofc2_made {q : Athena.Gen.Step ℝ} {P : Pot2} {g : Rng} {S0 : St ℝ ns} {X : Fy ns} (h : Made2 q P g S0 X) (bad : Cons ℝ ns → Bool) :
    Made2 q P g S0 (step14p bad (q.dt/q.dx1) (q.dt/q.dx2) P g X) :=
  step14p_inv (Made2 q P g S0) (fun _ _ _ _ h => fix2_made h _ _) h

/-- **C59 in 2D.** The divergence of the interface fields of every active zone is what it was before the step. -/
theorem fofc2_divB {q : Athena.Gen.Step ℝ} {P : Pot2} {g : Rng} {S0 : St ℝ ns} {X : Fy ns} (h : Made2 q P g S0 X) (bad : Cons ℝ ns → Bool)
    {j i : ℤ} (hz : InGrid2 g j i) :
    divB2 q.dx1 q.dx2 (step14p bad (q.dt/q.dx1) (q.dt/q.dx2) P g X).B1 (step14p bad (q.dt/q.dx1) (q.dt/q.dx2) P g X).B2 j i =
      divB2 q.dx1 q.dx2 (S0.B1i g.ks) (S0.B2i g.ks) j i := by
  have hM := fofc2_made h bad
  obtain ⟨⟨h3, h4⟩, h5, h6⟩ := hz
  unfold divB2
  rw [hM.B1 _ _ h3 h4 (by omega) (by omega), hM.B1 _ _ h3 h4 h5 (by omega), hM.B2 _ _ (by omega) (by omega) h5 h6, hM.B2 _ _ h3 (by omega) h5 h6,
    updV2_B1 _ _ _ _ _ _ h3 h4 (by omega) (by omega), updV2_B1 _ _ _ _ _ _ h3 h4 h5 (by omega),
    updV2_B2 _ _ _ _ _ _ (by omega) (by omega) h5 h6, updV2_B2 _ _ _ _ _ _ h3 (by omega) h5 h6]
  simp only [div_eq_mul_inv]
  ring

/-- **C59 in 2D.** A zone found bad ends as the first-order step, with the predictor's fluxes and electric fields, makes it. -/
theorem fofc2_first_order {q : Athena.Gen.Step ℝ} {P : Pot2} {g : Rng} {S0 : St ℝ ns} {X : Fy ns} (h : Made2 q P g S0 X)
    (bad : Cons ℝ ns → Bool) {j i : ℤ} (hb : FoundBad2 bad (q.dt/q.dx1) (q.dt/q.dx2) P g X (j, i)) :
    (step14p bad (q.dt/q.dx1) (q.dt/q.dx2) P g X).U j i =
      (let u := (updV2 q g S0 X.P1 X.P2 X.p).U g.ks j i
       { u with E := u.E - work2 (q.dt/q.dx1) (q.dt/q.dx2) P X.P1 X.P2 j i }) := by
  have hM := fofc2_made h bad
  have hz := found_in hb
  obtain ⟨l, r, e, hb⟩ := hb
  have hP := fold2_inv (X := X) (bad := bad) (q1 := q.dt/q.dx1) (q2 := q.dt/q.dx2) (P := P) (g := g)
    (fun Y => Y.P1 = X.P1 ∧ Y.P2 = X.P2 ∧ Y.p = X.p)
    (fun Y j i _ hY => by rw [fix2_P1, fix2_P2, fix2_p]; exact hY)
  have hPl : (l.foldl (turn2 bad (q.dt/q.dx1) (q.dt/q.dx2) P g) X).P1 = X.P1 ∧ (l.foldl (turn2 bad (q.dt/q.dx1) (q.dt/q.dx2) P g) X).P2 = X.P2 ∧
      (l.foldl (turn2 bad (q.dt/q.dx1) (q.dt/q.dx2) P g) X).p = X.p := by
    clear e hb hP
    induction l using List.reverseRecOn with
    | nil => exact ⟨rfl, rfl, rfl⟩
    | append_singleton l z ih =>
      rw [List.foldl_append, List.foldl_cons, List.foldl_nil]
      unfold turn2
      split_ifs
      · rw [fix2_P1, fix2_P2, fix2_p]; exact ih
      · exact ih
  have key := fold2_inv (X := X) (bad := bad) (q1 := q.dt/q.dx1) (q2 := q.dt/q.dx2) (P := P) (g := g)
    (fun Y => (Y.P1 = X.P1 ∧ Y.P2 = X.P2 ∧ Y.p = X.p) ∧ (Y.F1 j i = X.P1 j i ∧ Y.F1 j (i+1) = X.P1 j (i+1)) ∧
      (Y.F2 j i = X.P2 j i ∧ Y.F2 (j+1) i = X.P2 (j+1) i) ∧
      (Y.e j i = X.p j i ∧ Y.e j (i+1) = X.p j (i+1) ∧ Y.e (j+1) i = X.p (j+1) i ∧ Y.e (j+1) (i+1) = X.p (j+1) (i+1))) ?_ r (l ++ [(j, i)])
      (by rw [e]; simp) ?_
  · obtain ⟨-, ⟨a1, a2⟩, ⟨a3, a4⟩, a5, a6, a7, a8⟩ := key
    rw [← e.trans (show l ++ (j, i) :: r = l ++ [(j, i)] ++ r by simp)] at a1 a2 a3 a4 a5 a6 a7 a8
    change (step14p bad _ _ P g X).F1 _ _ = _ at a1
    change (step14p bad _ _ P g X).F1 _ _ = _ at a2
    change (step14p bad _ _ P g X).F2 _ _ = _ at a3
    change (step14p bad _ _ P g X).F2 _ _ = _ at a4
    change (step14p bad _ _ P g X).e _ _ = _ at a5
    change (step14p bad _ _ P g X).e _ _ = _ at a6
    change (step14p bad _ _ P g X).e _ _ = _ at a7
    change (step14p bad _ _ P g X).e _ _ = _ at a8
    rw [hM.U j i hz]
    obtain ⟨⟨h3, h4⟩, h5, h6⟩ := id hz
    have hw : ∀ F1 F2 : Pla (Cons1 ℝ ns), F1 j i = X.P1 j i → F1 j (i+1) = X.P1 j (i+1) → F2 j i = X.P2 j i → F2 (j+1) i = X.P2 (j+1) i →
        work2 (q.dt/q.dx1) (q.dt/q.dx2) P F1 F2 j i = work2 (q.dt/q.dx1) (q.dt/q.dx2) P X.P1 X.P2 j i := by
      intro F1 F2 b1 b2 b3 b4; simp only [work2, b1, b2, b3, b4]
    have hu : (updV2 q g S0 (step14p bad (q.dt/q.dx1) (q.dt/q.dx2) P g X).F1 (step14p bad (q.dt/q.dx1) (q.dt/q.dx2) P g X).F2
        (step14p bad (q.dt/q.dx1) (q.dt/q.dx2) P g X).e).U g.ks j i = (updV2 q g S0 X.P1 X.P2 X.p).U g.ks j i := by
      refine cons_of_ext (fun v => ?_) ?_ ?_ ?_
      · have b := updV2_of q g S0 (step14p bad (q.dt/q.dx1) (q.dt/q.dx2) P g X).F1 (step14p bad (q.dt/q.dx1) (q.dt/q.dx2) P g X).F2
          (step14p bad (q.dt/q.dx1) (q.dt/q.dx2) P g X).e (some v) hz
        rw [a1, a2, a3, a4, ← updV2_of q g S0 X.P1 X.P2 X.p (some v) hz] at b
        exact b
      · rw [(updV2_Bc q g S0 _ _ _ hz).1, (updV2_Bc q g S0 _ _ _ hz).1, updV2_B1 _ _ _ _ _ _ h3 h4 h5 (by omega), updV2_B1 _ _ _ _ _ _ h3 h4 h5 (by omega),
          updV2_B1 _ _ _ _ _ _ h3 h4 (by omega) (by omega), updV2_B1 _ _ _ _ _ _ h3 h4 (by omega) (by omega), a5, a6, a7, a8]
      · rw [(updV2_Bc q g S0 _ _ _ hz).2.1, (updV2_Bc q g S0 _ _ _ hz).2.1, updV2_B2 _ _ _ _ _ _ h3 (by omega) h5 h6, updV2_B2 _ _ _ _ _ _ h3 (by omega) h5 h6,
          updV2_B2 _ _ _ _ _ _ (by omega) (by omega) h5 h6, updV2_B2 _ _ _ _ _ _ (by omega) (by omega) h5 h6, a5, a6, a7, a8]
      · have b := updV2_of q g S0 (step14p bad (q.dt/q.dx1) (q.dt/q.dx2) P g X).F1 (step14p bad (q.dt/q.dx1) (q.dt/q.dx2) P g X).F2
          (step14p bad (q.dt/q.dx1) (q.dt/q.dx2) P g X).e none hz
        rw [a1, a2, a3, a4, ← updV2_of q g S0 X.P1 X.P2 X.p none hz] at b
        exact b
    rw [hw _ _ a1 a2 a3 a4, hu]
  · rintro Y j' i' _ ⟨⟨p1, p2, p3⟩, ⟨b1, b2⟩, ⟨b3, b4⟩, b5, b6, b7, b8⟩
    rw [fix2_P1, fix2_P2, fix2_p]
    simp only [fix2_F1, fix2_F2, fix2_e, p1, p2, p3, b1, b2, b3, b4, b5, b6, b7, b8, ite_self, and_self]
  · rw [List.foldl_append, List.foldl_cons, List.foldl_nil]
    rw [show turn2 bad (q.dt/q.dx1) (q.dt/q.dx2) P g (l.foldl (turn2 bad (q.dt/q.dx1) (q.dt/q.dx2) P g) X) (j, i) =
      fixCell2 (q.dt/q.dx1) (q.dt/q.dx2) P g (l.foldl (turn2 bad (q.dt/q.dx1) (q.dt/q.dx2) P g) X) j i from if_pos hb, fix2_P1, fix2_P2, fix2_p]
    simp [fix2_F1, fix2_F2, fix2_e, hPl.1, hPl.2.1, hPl.2.2]

/-- If no zone is bad, nothing changes. -/
theorem fofc2_idle (bad : Cons ℝ ns → Bool) (q1 q2 : ℝ) (P : Pot2) (g : Rng) (X : Fy ns) (h : ∀ j i, InGrid2 g j i → bad (X.U j i) = false) :
    step14p bad q1 q2 P g X = X := by
  have : ∀ l : List (ℤ × ℤ), (∀ z ∈ l, z ∈ zones2 g) → l.foldl (turn2 bad q1 q2 P g) X = X := by
    intro l
    induction l with
    | nil => intro _; rfl
    | cons z l ih =>
      intro hl
      have hz := h z.1 z.2 (mem_zones2.1 (hl z List.mem_cons_self))
      rw [List.foldl_cons, show turn2 bad q1 q2 P g X z = X by unfold turn2; rw [hz]; rfl]
      exact ih fun w hw => hl w (List.mem_cons_of_mem _ hw)
  exact this _ fun _ h => h

/-- The total of a variable, from what passes the boundary. -/
theorem made2_total {q : Athena.Gen.Step ℝ} {P : Pot2} {g : Rng} {n1 n2 : ℕ} (h1 : g.ie + 1 = g.is + n1) (h2 : g.je + 1 = g.js + n2)
    {S0 : St ℝ ns} {X : Fy ns} (h : Made2 q P g S0 X) (v : Option (CVar ns)) (hv : v ≠ some .E ∨ P = noPot2) :
    psum n1 n2 g (fun j i => of2 v (X.U j i)) = psum n1 n2 g (fun j i => of2 v (S0.U g.ks j i))
      - q.dt/q.dx1 * ∑ b ∈ Finset.range n2, (fl1 v (X.F1 (g.js+b) (g.ie+1)) - fl1 v (X.F1 (g.js+b) g.is))
      - q.dt/q.dx2 * ∑ a ∈ Finset.range n1, (fl2 v (X.F2 (g.je+1) (g.is+a)) - fl2 v (X.F2 g.js (g.is+a))) := by
  have hU : ∀ j i, InGrid2 g j i → of2 v (X.U j i) = of2 v (S0.U g.ks j i)
      - q.dt/q.dx1 * (fl1 v (X.F1 j (i+1)) - fl1 v (X.F1 j i)) - q.dt/q.dx2 * (fl2 v (X.F2 (j+1) i) - fl2 v (X.F2 j i)) := by
    intro j i hz
    rw [← updV2_of q g S0 X.F1 X.F2 X.e v hz, h.U j i hz]
    rcases hv with hv | rfl
    · rcases v with _ | v
      · rfl
      · cases v <;> first | exact absurd rfl hv | rfl
    · simp only [work2, noPot2, sub_zero, mul_zero, add_zero]
  unfold psum
  have e : ∀ b ∈ Finset.range n2, ∑ a ∈ Finset.range n1, of2 v (X.U (g.js+b) (g.is+a)) =
      ∑ a ∈ Finset.range n1, of2 v (S0.U g.ks (g.js+b) (g.is+a))
      - q.dt/q.dx1 * (fl1 v (X.F1 (g.js+b) (g.ie+1)) - fl1 v (X.F1 (g.js+b) g.is))
      - q.dt/q.dx2 * ∑ a ∈ Finset.range n1, (fl2 v (X.F2 (g.js+b+1) (g.is+a)) - fl2 v (X.F2 (g.js+b) (g.is+a))) := by
    intro b hb
    have hb := Finset.mem_range.1 hb
    have t := Finset.sum_range_sub (fun a : ℕ => fl1 v (X.F1 (g.js+b) (g.is+a))) n1
    simp only [Nat.cast_zero, add_zero] at t
    rw [h1, ← t, Finset.mul_sum, Finset.mul_sum, ← Finset.sum_sub_distrib, ← Finset.sum_sub_distrib]
    refine Finset.sum_congr rfl fun a ha => ?_
    have ha := Finset.mem_range.1 ha
    rw [hU _ _ ⟨⟨by omega, by omega⟩, by omega, by omega⟩]
    push_cast
    rw [add_assoc g.is]
  suffices c : ∑ b ∈ Finset.range n2, ∑ a ∈ Finset.range n1, (fl2 v (X.F2 (g.js+b+1) (g.is+a)) - fl2 v (X.F2 (g.js+b) (g.is+a))) =
      ∑ a ∈ Finset.range n1, (fl2 v (X.F2 (g.je+1) (g.is+a)) - fl2 v (X.F2 g.js (g.is+a))) by
    rw [Finset.sum_congr rfl e, Finset.sum_sub_distrib, Finset.sum_sub_distrib, ← Finset.mul_sum, ← Finset.mul_sum, c]
  rw [Finset.sum_comm]
  refine Finset.sum_congr rfl fun a _ => ?_
  have t := Finset.sum_range_sub (fun b : ℕ => fl2 v (X.F2 (g.js+b) (g.is+a))) n2
  simp only [Nat.cast_zero, add_zero] at t
  rw [h2, ← t]
  refine Finset.sum_congr rfl fun b _ => ?_
  push_cast
  rw [add_assoc g.js]

/-- **C59 in 2D.** Totals are kept while no zone at the boundary of the Grid is found bad.  Missing for the full property: zones at the
boundary, for which it is false (`fofc2_conserves_false`). -/
theorem fofc2_conserves_partial {q : Athena.Gen.Step ℝ} {P : Pot2} {g : Rng} {n1 n2 : ℕ} (h1 : g.ie + 1 = g.is + n1) (h2 : g.je + 1 = g.js + n2)
    {S0 : St ℝ ns} {X : Fy ns} (h : Made2 q P g S0 X) (bad : Cons ℝ ns → Bool)
    (hb : ∀ z, AtEdge g z → ¬FoundBad2 bad (q.dt/q.dx1) (q.dt/q.dx2) P g X z) (v : Option (CVar ns)) (hv : v ≠ some .E ∨ P = noPot2) :
    psum n1 n2 g (fun j i => of2 v ((step14p bad (q.dt/q.dx1) (q.dt/q.dx2) P g X).U j i)) = psum n1 n2 g (fun j i => of2 v (X.U j i)) := by
  rw [made2_total h1 h2 h v hv, made2_total h1 h2 (fofc2_made h bad) v hv]
  have key := step14p_inv (X := X) (bad := bad) (q1 := q.dt/q.dx1) (q2 := q.dt/q.dx2) (P := P) (g := g)
    (fun Y => (∀ j, Y.F1 j g.is = X.F1 j g.is ∧ Y.F1 j (g.ie+1) = X.F1 j (g.ie+1)) ∧
      ∀ i, Y.F2 g.js i = X.F2 g.js i ∧ Y.F2 (g.je+1) i = X.F2 (g.je+1) i) ?_ ⟨fun _ => ⟨rfl, rfl⟩, fun _ => ⟨rfl, rfl⟩⟩
  · simp only [key.1, key.2]
  · intro Y j i hf ⟨k1, k2⟩
    have hz : InGrid2 g j i := found_in hf
    have he : ¬AtEdge g (j, i) := fun he => hb _ he hf
    unfold AtEdge at he
    unfold InGrid2 at hz
    dsimp only at he
    refine ⟨fun y => ?_, fun x => ?_⟩
    · rw [fix2_F1, fix2_F1, if_neg (by omega), if_neg (by omega)]; exact k1 y
    · rw [fix2_F2, fix2_F2, if_neg (by omega), if_neg (by omega)]; exact k2 x

end Athena.Fofc
