import Verif.Smr.RDiv

/-!
# The EMF correction of all boundaries is a curl
-/

namespace Athena.Smr

variable {R : Type*} [Field R] {nf : Nat}

open Child (normal)

variable {c : Child R nf} {p : Parent R nf} {A : Box} {E g : Fin 3 → Z3 → R}

theorem if_eq {P Q : Prop} [Decidable P] [Decidable Q] {x y : R} (h : P ↔ Q) (hx : Q → x = y) :
    (if P then x else 0) = if Q then y else 0 := by
  by_cases hq : Q
  · rw [if_pos hq, if_pos (h.2 hq), hx hq]
  · rw [if_neg hq, if_neg (fun e => hq (h.1 e))]

theorem Step.side1 (h : Step c p A E g) {d : Fin 6} (hn : normal d = 0) (k j i : ℤ) :
    emfAt c p d 0 (k, j, i) =
      (if (p.flx d).isSome = true ∧ i = iBnd p d ∧ (p.box.js ≤ j ∧ j ≤ p.box.je) ∧ (p.box.ks ≤ k ∧ k ≤ p.box.ke) then
        p.dt / p.dx 1 * (dEz c p E g 2 (k, j+1, i) - dEz c p E g 2 (k, j, i)) else 0) +
      (if (p.flx d).isSome = true ∧ i = iBnd p d ∧ (p.box.ks ≤ k ∧ k ≤ p.box.ke) ∧ (p.box.js ≤ j ∧ j ≤ p.box.je) ∧ p.nDim = 3 then
        -(p.dt / p.dx 2 * (dEz c p E g 1 (k+1, j, i) - dEz c p E g 1 (k, j, i))) else 0) ∧
    emfAt c p d 1 (k, j, i) =
      (if (p.flx d).isSome = true ∧ i = iOut p d ∧ (p.box.js ≤ j ∧ j ≤ p.box.je + 1) ∧ (p.box.ks ≤ k ∧ k ≤ p.box.ke) then
        p.q d * dEz c p E g 2 (k, j, iBnd p d) else 0) ∧
    emfAt c p d 2 (k, j, i) =
      (if (p.flx d).isSome = true ∧ i = iOut p d ∧ (p.box.ks ≤ k ∧ k ≤ p.box.ke + 1) ∧ (p.box.js ≤ j ∧ j ≤ p.box.je) ∧ p.nDim = 3 then
        - p.q d * dEz c p E g 1 (k, j, iBnd p d) else 0) := by
  have hw := h.wide
  have u3 := h.use3
  unfold emfAt
  rw [if_pos hn, if_pos hn, if_pos hn, h.st.e0 d hn]
  by_cases hs : (p.flx d).isSome = true
  · obtain ⟨q3, q2⟩ := h.d1 hn hs
    rw [if_pos hs, if_pos hs, if_pos hs]
    unfold D1
    dsimp only
    refine ⟨?_, ?_, ?_⟩
    · rw [if_neg (c := (0 : Fin 3) = 1) (by decide), if_neg (c := (0 : Fin 3) = 2) (by decide),
        if_neg (c := p.box.ie < p.box.is ∧ _) (by omega), if_neg (c := p.nDim = 3 ∧ p.box.ie < p.box.is ∧ _) (by omega)]
      rw [add_zero, add_zero]
      congr 1
      · apply if_eq (by tauto)
        rintro ⟨_, rfl, hj, hk⟩
        rw [q3 k (j+1) hk (by omega), q3 k j hk (by omega)]
      · apply if_eq (by tauto)
        rintro ⟨_, rfl, hk, hj, hD⟩
        rw [q2 hD (k+1) j (by omega) hj, q2 hD k j (by omega) hj]
    · rw [if_pos rfl]
      apply if_eq (by rw [u3]; tauto)
      rintro ⟨_, _, hj, hk⟩
      rw [q3 k j hk hj]
    · rw [if_neg (c := (2 : Fin 3) = 1) (by decide), if_pos rfl]
      apply if_eq
      · constructor
        · tauto
        · rintro ⟨_, a, b, cc, dd⟩; rw [h.use2 dd]; tauto
      · rintro ⟨_, _, hk, hj, hD⟩
        rw [q2 hD k j hk hj]
  · rw [if_neg hs, if_neg hs, if_neg hs]
    refine ⟨?_, ?_, ?_⟩
    · rw [if_neg (fun e => hs e.1), if_neg (fun e => hs e.1), add_zero]
    · rw [if_neg (fun e => hs e.1)]
    · rw [if_neg (fun e => hs e.1)]

theorem Step.side2 (h : Step c p A E g) {d : Fin 6} (hn : normal d = 1) (k j i : ℤ) :
    emfAt c p d 1 (k, j, i) =
      (if (p.flx d).isSome = true ∧ j = jBnd p d ∧ (p.box.is ≤ i ∧ i ≤ p.box.ie) ∧ (p.box.ks ≤ k ∧ k ≤ p.box.ke) then
        -(p.dt / p.dx 0 * (dEz c p E g 2 (k, j, i+1) - dEz c p E g 2 (k, j, i))) else 0) +
      (if (p.flx d).isSome = true ∧ j = jBnd p d ∧ (p.box.ks ≤ k ∧ k ≤ p.box.ke) ∧ (p.box.is ≤ i ∧ i ≤ p.box.ie) ∧ p.nDim = 3 then
        p.dt / p.dx 2 * (dEz c p E g 0 (k+1, j, i) - dEz c p E g 0 (k, j, i)) else 0) ∧
    emfAt c p d 0 (k, j, i) =
      (if (p.flx d).isSome = true ∧ j = jOut p d ∧ (p.box.is ≤ i ∧ i ≤ p.box.ie + 1) ∧ (p.box.ks ≤ k ∧ k ≤ p.box.ke) then
        - p.q d * dEz c p E g 2 (k, jBnd p d, i) else 0) ∧
    emfAt c p d 2 (k, j, i) =
      (if (p.flx d).isSome = true ∧ j = jOut p d ∧ (p.box.ks ≤ k ∧ k ≤ p.box.ke + 1) ∧ (p.box.is ≤ i ∧ i ≤ p.box.ie) ∧ p.nDim = 3 then
        p.q d * dEz c p E g 0 (k, jBnd p d, i) else 0) := by
  have hw := h.wide
  have u3 := h.use3y
  unfold emfAt
  have hn0 : ¬ normal d = 0 := by rw [hn]; decide
  rw [if_neg hn0, if_neg hn0, if_neg hn0, if_pos hn, if_pos hn, if_pos hn, h.st.e1 d hn]
  by_cases hs : (p.flx d).isSome = true
  · obtain ⟨q3, q2⟩ := h.d2 hn hs
    rw [if_pos hs, if_pos hs, if_pos hs]
    unfold D2
    dsimp only
    refine ⟨?_, ?_, ?_⟩
    · rw [if_neg (c := (1 : Fin 3) = 0) (by decide), if_neg (c := (1 : Fin 3) = 2) (by decide),
        if_neg (c := p.box.je < p.box.js ∧ _) (by omega), if_neg (c := p.nDim = 3 ∧ p.box.je < p.box.js ∧ _) (by omega)]
      rw [add_zero, add_zero]
      congr 1
      · apply if_eq (by tauto)
        rintro ⟨_, rfl, hj, hk⟩
        rw [q3 k (i+1) hk (by omega), q3 k i hk (by omega)]
      · apply if_eq (by tauto)
        rintro ⟨_, rfl, hk, hj, hD⟩
        rw [q2 hD (k+1) i (by omega) hj, q2 hD k i (by omega) hj]
    · rw [if_pos rfl]
      apply if_eq (by rw [u3]; tauto)
      rintro ⟨_, _, hj, hk⟩
      rw [q3 k i hk hj]
    · rw [if_neg (c := (2 : Fin 3) = 0) (by decide), if_pos rfl]
      apply if_eq
      · constructor
        · tauto
        · rintro ⟨_, a, b, cc, dd⟩; rw [h.use1y dd]; tauto
      · rintro ⟨_, _, hk, hj, hD⟩
        rw [q2 hD k i hk hj]
  · rw [if_neg hs, if_neg hs, if_neg hs]
    refine ⟨?_, ?_, ?_⟩
    · rw [if_neg (fun e => hs e.1), if_neg (fun e => hs e.1), add_zero]
    · rw [if_neg (fun e => hs e.1)]
    · rw [if_neg (fun e => hs e.1)]

theorem Step.side3 (h : Step c p A E g) {d : Fin 6} (hn : normal d = 2) (k j i : ℤ) :
    emfAt c p d 2 (k, j, i) =
      (if (p.flx d).isSome = true ∧ k = kBnd p d ∧ (p.box.is ≤ i ∧ i ≤ p.box.ie) ∧ (p.box.js ≤ j ∧ j ≤ p.box.je) ∧ p.nDim = 3 then
        p.dt / p.dx 0 * (dEz c p E g 1 (k, j, i+1) - dEz c p E g 1 (k, j, i)) else 0) +
      (if (p.flx d).isSome = true ∧ k = kBnd p d ∧ (p.box.js ≤ j ∧ j ≤ p.box.je) ∧ (p.box.is ≤ i ∧ i ≤ p.box.ie) ∧ p.nDim = 3 then
        -(p.dt / p.dx 1 * (dEz c p E g 0 (k, j+1, i) - dEz c p E g 0 (k, j, i))) else 0) ∧
    emfAt c p d 0 (k, j, i) =
      (if (p.flx d).isSome = true ∧ k = kOut p d ∧ (p.box.is ≤ i ∧ i ≤ p.box.ie + 1) ∧ (p.box.js ≤ j ∧ j ≤ p.box.je) ∧ p.nDim = 3 then
        p.q d * dEz c p E g 1 (kBnd p d, j, i) else 0) ∧
    emfAt c p d 1 (k, j, i) =
      (if (p.flx d).isSome = true ∧ k = kOut p d ∧ (p.box.js ≤ j ∧ j ≤ p.box.je + 1) ∧ (p.box.is ≤ i ∧ i ≤ p.box.ie) ∧ p.nDim = 3 then
        - p.q d * dEz c p E g 0 (kBnd p d, j, i) else 0) := by
  have hw := h.wide
  unfold emfAt
  have hn0 : ¬ normal d = 0 := by rw [hn]; decide
  have hn1 : ¬ normal d = 1 := by rw [hn]; decide
  rw [if_neg hn0, if_neg hn0, if_neg hn0, if_neg hn1, if_neg hn1, if_neg hn1, h.st.e2 d hn]
  by_cases hs : (p.flx d).isSome = true
  · have hD : p.nDim = 3 := h.e.x3 d hn ((h.st.e2 d hn).trans hs)
    obtain ⟨q1, q2⟩ := h.d3 hD hn hs
    rw [if_pos hs, if_pos hs, if_pos hs]
    unfold D3
    dsimp only
    refine ⟨?_, ?_, ?_⟩
    · rw [if_neg (c := (2 : Fin 3) = 0) (by decide), if_neg (c := (2 : Fin 3) = 1) (by decide),
        if_neg (c := p.box.ke < p.box.ks ∧ _) (by omega), if_neg (c := p.box.ke < p.box.ks ∧ _) (by omega)]
      rw [add_zero, add_zero]
      by_cases hc : (p.box.js ≤ j ∧ j ≤ p.box.je) ∧ (p.box.is ≤ i ∧ i ≤ p.box.ie) ∧ k = kBnd p d
      · obtain ⟨hj, hi, rfl⟩ := hc
        rw [if_pos ⟨hj, hi, rfl⟩, if_pos ⟨hs, rfl, hi, hj, hD⟩, if_pos ⟨hs, rfl, hj, hi, hD⟩, q2 j (i+1) hj (by omega),
          q2 j i hj (by omega), q1 (j+1) i (by omega) hi, q1 j i (by omega) hi, sub_eq_add_neg]
      · rw [if_neg hc, if_neg (by tauto), if_neg (by tauto), add_zero]
    · rw [if_neg (c := (0 : Fin 3) = 1) (by decide), if_pos rfl]
      apply if_eq (by rw [h.use2z hD]; tauto)
      rintro ⟨_, _, hi, hj, _⟩
      rw [q2 j i hj hi]
    · rw [if_pos rfl]
      apply if_eq (by rw [h.use1z hD]; tauto)
      rintro ⟨_, _, hj, hi, _⟩
      rw [q1 j i hj hi]
  · rw [if_neg hs, if_neg hs, if_neg hs]
    refine ⟨?_, ?_, ?_⟩
    · rw [if_neg (fun e => hs e.1), if_neg (fun e => hs e.1), add_zero]
    · rw [if_neg (fun e => hs e.1)]
    · rw [if_neg (fun e => hs e.1)]

theorem planeW (κ : R) (Δ : ℤ → R) (us ue vs ve u v : ℤ) (a0 a1 b0 b1 : Bool) (hu : us ≤ ue) (hv : vs ≤ ve)
    (W : Prop) [Decidable W]
    (hinj : W → us ≤ u → u ≤ ue + 1 → vs ≤ v → v ≤ ve → (a0 = true ∧ u = us) ∨ (a1 = true ∧ u = ue + 1))
    (h0 : W → b0 = false → vs ≤ v) (h1 : W → b1 = false → v ≤ ve)
    (P : ℤ → R) (Q : ℤ → Prop) (hP : ∀ w, (Q w → P w = Δ w) ∧ (¬ Q w → P w = 0))
    (hQ : ∀ w, Q w ↔ W ∧ (((a0 = true ∧ u = us ∨ a1 = true ∧ u = ue + 1) ∧ (vs ≤ w ∧ w ≤ ve + 1)) ∨
      ((b0 = true ∧ w = vs ∨ b1 = true ∧ w = ve + 1) ∧ (us ≤ u ∧ u ≤ ue + 1)))) :
    (if a0 = true ∧ u = us ∧ (vs ≤ v ∧ v ≤ ve) ∧ W then κ * (Δ (v+1) - Δ v) else 0) +
    (if a1 = true ∧ u = ue + 1 ∧ (vs ≤ v ∧ v ≤ ve) ∧ W then κ * (Δ (v+1) - Δ v) else 0) +
    (if b0 = true ∧ v = vs - 1 ∧ (us ≤ u ∧ u ≤ ue + 1) ∧ W then κ * Δ vs else 0) +
    (if b1 = true ∧ v = ve + 1 ∧ (us ≤ u ∧ u ≤ ue + 1) ∧ W then -κ * Δ (ve+1) else 0) = κ * (P (v+1) - P v) := by
  by_cases hW : W
  · rw [← plane Δ us ue vs ve u v a0 a1 b0 b1 hu hv (hinj hW) (h0 hW) (h1 hW) P]
    · have m1 : ∀ (C : Prop) [Decidable C] (x : R), κ * (if C then x else 0) = if C then κ * x else 0 := by
        intro C _ x; by_cases hC : C <;> simp [hC]
      have md : ∀ x1 x2 x3 x4 : R, κ * (x1 + x2 + x3 - x4) = κ * x1 + κ * x2 + κ * x3 + -(κ * x4) := by intros; ring
      rw [md, m1, m1, m1, m1]
      congr 1
      · congr 1
        · congr 1
          · exact if_eq (by tauto) (fun _ => rfl)
          · exact if_eq (by tauto) (fun _ => rfl)
        · exact if_eq (by tauto) (fun _ => rfl)
      · by_cases hC : b1 = true ∧ v = ve + 1 ∧ (us ≤ u ∧ u ≤ ue + 1)
        · rw [if_pos hC, if_pos (by tauto)]; ring
        · rw [if_neg hC, if_neg (by tauto)]; ring
    · intro w
      have hq := hQ w
      by_cases hC : Q w
      · rw [(hP w).1 hC, if_pos (hq.1 hC).2]
      · rw [(hP w).2 hC, if_neg (fun e => hC (hq.2 ⟨hW, e⟩))]
  · rw [if_neg (by tauto), if_neg (by tauto), if_neg (by tauto), if_neg (by tauto),
      (hP v).2 (fun e => hW ((hQ v).1 e).1), (hP (v+1)).2 (fun e => hW ((hQ (v+1)).1 e).1)]
    ring

/-- The transverse indices of a face normal to `m` are those of zones of `A`. -/
def onA (A : Box) (m : Fin 3) (z : Z3) : Prop :=
  (m ≠ 0 → A.is ≤ z.2.2 ∧ z.2.2 ≤ A.ie) ∧ (m ≠ 1 → A.js ≤ z.2.1 ∧ z.2.1 ≤ A.je) ∧ (m ≠ 2 → A.ks ≤ z.1 ∧ z.1 ≤ A.ke)

/-- A face that is given the mean of the fine field directly. -/
def injected (p : Parent R nf) (m : Fin 3) (z : Z3) : Prop := z ∈ faces p m ∧ skip p m z = false

theorem dEb_cases (e : Fin 3) (z : Z3) : (edgeOn p e z → dEb c p E g e z = dEz c p E g e z) ∧
    (¬ edgeOn p e z → dEb c p E g e z = 0) := by
  unfold dEb
  exact ⟨fun h => if_pos h, fun h => if_neg h⟩

theorem Step.lo (h : Step c p A E g) : ((p.flx 0).isSome = false → p.box.is = A.is) ∧
    ((p.flx 1).isSome = false → p.box.ie = A.ie) ∧
    ((p.flx 2).isSome = false → p.box.js = A.js) ∧ ((p.flx 3).isSome = false → p.box.je = A.je) ∧
    (p.nDim = 3 → (p.flx 4).isSome = false → p.box.ks = A.ks) ∧ (p.nDim = 3 → (p.flx 5).isSome = false → p.box.ke = A.ke) := by
  have hD := h.dim
  refine ⟨fun hs => ?_, fun hs => ?_, fun hs => ?_, fun hs => ?_, fun hD hs => ?_, fun hD hs => ?_⟩
  · have := h.inside.outer 0 (by simp [normal]; omega) hs
    simpa [Box.bnd, Box.hi, Box.lo, normal] using this
  · have := h.inside.outer 1 (by simp [normal]; omega) hs
    simpa [Box.bnd, Box.hi, Box.lo, normal] using this
  · have := h.inside.outer 2 (by simp [normal]; omega) hs
    simpa [Box.bnd, Box.hi, Box.lo, normal] using this
  · have := h.inside.outer 3 (by simp [normal]; omega) hs
    simpa [Box.bnd, Box.hi, Box.lo, normal] using this
  · have := h.inside.outer 4 (by simp [normal, hD]) hs
    simpa [Box.bnd, Box.hi, Box.lo, normal] using this
  · have := h.inside.outer 5 (by simp [normal, hD]) hs
    simpa [Box.bnd, Box.hi, Box.lo, normal] using this

theorem notinj {m : Fin 3} {k j i : ℤ} (hi : ¬ injected p m (k, j, i)) :
    (m = 0 → p.box.is ≤ i → i ≤ p.box.ie + 1 → p.box.js ≤ j → j ≤ p.box.je → p.box.ks ≤ k → k ≤ p.box.ke →
      (p.flx 0).isSome = true ∧ i = p.box.is ∨ (p.flx 1).isSome = true ∧ i = p.box.ie + 1) ∧
    (m = 1 → p.box.is ≤ i → i ≤ p.box.ie → p.box.js ≤ j → j ≤ p.box.je + 1 → p.box.ks ≤ k → k ≤ p.box.ke →
      (p.flx 2).isSome = true ∧ j = p.box.js ∨ (p.flx 3).isSome = true ∧ j = p.box.je + 1) ∧
    (m = 2 → p.box.is ≤ i → i ≤ p.box.ie → p.box.js ≤ j → j ≤ p.box.je → p.box.ks ≤ k → k ≤ p.box.ke + 1 →
      (p.flx 4).isSome = true ∧ k = p.box.ks ∨ (p.flx 5).isSome = true ∧ k = p.box.ke + 1) := by
  refine ⟨?_, ?_, ?_⟩ <;> rintro rfl h1 h2 h3 h4 h5 h6 <;> by_contra hc <;> apply hi
  · refine ⟨by simp [faces, List.mem_product, mem_rng]; omega, ?_⟩
    simp [skip, Option.isSome_iff_ne_none] at hc ⊢; tauto
  · refine ⟨by simp [faces, List.mem_product, mem_rng]; omega, ?_⟩
    simp [skip, Option.isSome_iff_ne_none] at hc ⊢; tauto
  · refine ⟨by simp [faces, List.mem_product, mem_rng]; omega, ?_⟩
    simp [skip, Option.isSome_iff_ne_none] at hc ⊢; tauto

theorem regroup {a b c d e f g h x y : R} (h1 : a + b + c + d = x) (h2 : e + f + g + h = y) :
    (a + e) + ((b + f) + (c + (d + (g + (h + 0))))) = x + y := by
  rw [← h1, ← h2]; ring

theorem regroup1 {a b c d e f g h x y : R} (h1 : a + b + c + d = x) (h2 : e + f + g + h = y) :
    c + (d + ((a + e) + ((b + f) + (g + (h + 0))))) = x + y := by
  rw [← h1, ← h2]; ring

theorem regroup2 {a b c d e f g h x y : R} (h1 : a + b + c + d = x) (h2 : e + f + g + h = y) :
    c + (d + (g + (h + ((a + e) + ((b + f) + 0))))) = x + y := by
  rw [← h1, ← h2]; ring

theorem edgeOn2 (k j i : ℤ) : edgeOn p 2 (k, j, i) ↔ (p.box.ks ≤ k ∧ k ≤ p.box.ke) ∧
    ((((p.flx 0).isSome = true ∧ i = p.box.is ∨ (p.flx 1).isSome = true ∧ i = p.box.ie + 1) ∧ (p.box.js ≤ j ∧ j ≤ p.box.je + 1)) ∨
      (((p.flx 2).isSome = true ∧ j = p.box.js ∨ (p.flx 3).isSome = true ∧ j = p.box.je + 1) ∧ (p.box.is ≤ i ∧ i ≤ p.box.ie + 1))) := by
  unfold edgeOn
  dsimp only
  rw [if_pos rfl]

theorem edgeOn1 (k j i : ℤ) : edgeOn p 1 (k, j, i) ↔ ((p.box.js ≤ j ∧ j ≤ p.box.je) ∧ p.nDim = 3) ∧
    ((((p.flx 0).isSome = true ∧ i = p.box.is ∨ (p.flx 1).isSome = true ∧ i = p.box.ie + 1) ∧ (p.box.ks ≤ k ∧ k ≤ p.box.ke + 1)) ∨
      (((p.flx 4).isSome = true ∧ k = p.box.ks ∨ (p.flx 5).isSome = true ∧ k = p.box.ke + 1) ∧ (p.box.is ≤ i ∧ i ≤ p.box.ie + 1))) := by
  unfold edgeOn
  dsimp only
  rw [if_neg (by decide), if_pos rfl, ← and_assoc, and_comm (a := p.nDim = 3)]

theorem edgeOn0 (k j i : ℤ) : edgeOn p 0 (k, j, i) ↔ ((p.box.is ≤ i ∧ i ≤ p.box.ie) ∧ p.nDim = 3) ∧
    ((((p.flx 2).isSome = true ∧ j = p.box.js ∨ (p.flx 3).isSome = true ∧ j = p.box.je + 1) ∧ (p.box.ks ≤ k ∧ k ≤ p.box.ke + 1)) ∨
      (((p.flx 4).isSome = true ∧ k = p.box.ks ∨ (p.flx 5).isSome = true ∧ k = p.box.ke + 1) ∧ (p.box.js ≤ j ∧ j ≤ p.box.je + 1))) := by
  unfold edgeOn
  dsimp only
  rw [if_neg (by decide), if_neg (by decide), ← and_assoc, and_comm (a := p.nDim = 3)]

theorem sidesR (p : Parent R nf) : p.q 0 = -(p.dt / p.dx 0) ∧ p.q 1 = p.dt / p.dx 0 ∧ p.q 2 = -(p.dt / p.dx 1) ∧
    p.q 3 = p.dt / p.dx 1 ∧ p.q 4 = -(p.dt / p.dx 2) ∧ p.q 5 = p.dt / p.dx 2 := ⟨rfl, rfl, rfl, rfl, rfl, rfl⟩

theorem bnds (p : Parent R nf) : iBnd p 0 = p.box.is ∧ iBnd p 1 = p.box.ie + 1 ∧ jBnd p 2 = p.box.js ∧
    jBnd p 3 = p.box.je + 1 ∧ kBnd p 4 = p.box.ks ∧ kBnd p 5 = p.box.ke + 1 := ⟨rfl, rfl, rfl, rfl, rfl, rfl⟩

theorem outs (p : Parent R nf) : iOut p 0 = p.box.is - 1 ∧ iOut p 1 = p.box.ie + 1 ∧ jOut p 2 = p.box.js - 1 ∧
    jOut p 3 = p.box.je + 1 ∧ kOut p 4 = p.box.ks - 1 ∧ kOut p 5 = p.box.ke + 1 := ⟨rfl, rfl, rfl, rfl, rfl, rfl⟩

theorem Step.curl0 (h : Step c p A E g) (k j i : ℤ) (hA : onA A 0 (k, j, i)) (hi : ¬ injected p 0 (k, j, i)) :
    (Child.dims.map fun d => emfAt c p d 0 (k, j, i)).sum =
      p.dt / p.dx 1 * (dEb c p E g 2 (k, j+1, i) - dEb c p E g 2 (k, j, i)) +
      -(p.dt / p.dx 2) * (dEb c p E g 1 (k+1, j, i) - dEb c p E g 1 (k, j, i)) := by
  obtain ⟨w1, w2, w3, w4⟩ := h.wide
  obtain ⟨l0, l1, l2, l3, l4, l5⟩ := h.lo
  have hni := (notinj hi).1 rfl
  obtain ⟨hA1, hA2⟩ := hA.2.1 (by decide)
  obtain ⟨hA3, hA4⟩ := hA.2.2 (by decide)
  have P2 := planeW (p.dt / p.dx 1) (fun w => dEz c p E g 2 (k, w, i)) p.box.is p.box.ie p.box.js p.box.je i j (p.flx 0).isSome
    (p.flx 1).isSome (p.flx 2).isSome (p.flx 3).isSome w1.le w2.le (p.box.ks ≤ k ∧ k ≤ p.box.ke)
    (fun hW a b cc d => hni a b cc d hW.1 hW.2) (fun _ hs => by rw [l2 hs]; exact hA1) (fun _ hs => by rw [l3 hs]; exact hA2)
    (fun w => dEb c p E g 2 (k, w, i)) (fun w => edgeOn p 2 (k, w, i)) (fun w => dEb_cases _ _)
    (fun w => edgeOn2 k w i)
  have P1 := planeW (-(p.dt / p.dx 2)) (fun w => dEz c p E g 1 (w, j, i)) p.box.is p.box.ie p.box.ks p.box.ke i k (p.flx 0).isSome
    (p.flx 1).isSome (p.flx 4).isSome (p.flx 5).isSome w1.le w3 ((p.box.js ≤ j ∧ j ≤ p.box.je) ∧ p.nDim = 3)
    (fun hW a b cc d => hni a b hW.1.1 hW.1.2 cc d) (fun hW hs => by rw [l4 hW.2 hs]; exact hA3)
    (fun hW hs => by rw [l5 hW.2 hs]; exact hA4)
    (fun w => dEb c p E g 1 (w, j, i)) (fun w => edgeOn p 1 (w, j, i)) (fun w => dEb_cases _ _)
    (fun w => edgeOn1 w j i)
  refine Eq.trans ?_ (regroup P2 P1)
  obtain ⟨q0, q1, q2, q3, q4, q5⟩ := sidesR p
  obtain ⟨b0, b1, b2, b3, b4, b5⟩ := bnds p
  obtain ⟨o0, o1, o2, o3, o4, o5⟩ := outs p
  simp only [Child.dims, List.map_cons, List.map_nil, List.sum_cons, List.sum_nil]
  rw [(h.side1 (d := 0) rfl k j i).1, (h.side1 (d := 1) rfl k j i).1, (h.side2 (d := 2) rfl k j i).2.1,
    (h.side2 (d := 3) rfl k j i).2.1, (h.side3 (d := 4) rfl k j i).2.1, (h.side3 (d := 5) rfl k j i).2.1]
  rw [q2, q3, q4, q5, b0, b1, b2, b3, b4, b5, o2, o3, o4, o5]
  simp only [neg_neg, neg_mul]

theorem Step.curl1 (h : Step c p A E g) (k j i : ℤ) (hA : onA A 1 (k, j, i)) (hi : ¬ injected p 1 (k, j, i)) :
    (Child.dims.map fun d => emfAt c p d 1 (k, j, i)).sum =
      -(p.dt / p.dx 0) * (dEb c p E g 2 (k, j, i+1) - dEb c p E g 2 (k, j, i)) +
      p.dt / p.dx 2 * (dEb c p E g 0 (k+1, j, i) - dEb c p E g 0 (k, j, i)) := by
  obtain ⟨w1, w2, w3, w4⟩ := h.wide
  obtain ⟨l0, l1, l2, l3, l4, l5⟩ := h.lo
  have hni := (notinj hi).2.1 rfl
  obtain ⟨hA1, hA2⟩ := hA.1 (by decide)
  obtain ⟨hA3, hA4⟩ := hA.2.2 (by decide)
  have P2 := planeW (-(p.dt / p.dx 0)) (fun w => dEz c p E g 2 (k, j, w)) p.box.js p.box.je p.box.is p.box.ie j i (p.flx 2).isSome
    (p.flx 3).isSome (p.flx 0).isSome (p.flx 1).isSome w2.le w1.le (p.box.ks ≤ k ∧ k ≤ p.box.ke)
    (fun hW a b cc d => hni cc d a b hW.1 hW.2) (fun _ hs => by rw [l0 hs]; exact hA1) (fun _ hs => by rw [l1 hs]; exact hA2)
    (fun w => dEb c p E g 2 (k, j, w)) (fun w => edgeOn p 2 (k, j, w)) (fun w => dEb_cases _ _)
    (fun w => (edgeOn2 k j w).trans (and_congr_right fun _ => or_comm))
  have P1 := planeW (p.dt / p.dx 2) (fun w => dEz c p E g 0 (w, j, i)) p.box.js p.box.je p.box.ks p.box.ke j k (p.flx 2).isSome
    (p.flx 3).isSome (p.flx 4).isSome (p.flx 5).isSome w2.le w3 ((p.box.is ≤ i ∧ i ≤ p.box.ie) ∧ p.nDim = 3)
    (fun hW a b cc d => hni hW.1.1 hW.1.2 a b cc d) (fun hW hs => by rw [l4 hW.2 hs]; exact hA3)
    (fun hW hs => by rw [l5 hW.2 hs]; exact hA4)
    (fun w => dEb c p E g 0 (w, j, i)) (fun w => edgeOn p 0 (w, j, i)) (fun w => dEb_cases _ _)
    (fun w => edgeOn0 w j i)
  refine Eq.trans ?_ (regroup1 P2 P1)
  obtain ⟨q0, q1, q2, q3, q4, q5⟩ := sidesR p
  obtain ⟨b0, b1, b2, b3, b4, b5⟩ := bnds p
  obtain ⟨o0, o1, o2, o3, o4, o5⟩ := outs p
  simp only [Child.dims, List.map_cons, List.map_nil, List.sum_cons, List.sum_nil]
  rw [(h.side1 (d := 0) rfl k j i).2.1, (h.side1 (d := 1) rfl k j i).2.1, (h.side2 (d := 2) rfl k j i).1,
    (h.side2 (d := 3) rfl k j i).1, (h.side3 (d := 4) rfl k j i).2.2, (h.side3 (d := 5) rfl k j i).2.2]
  rw [q0, q1, q4, q5, b0, b1, b2, b3, b4, b5, o0, o1, o4, o5]
  simp only [neg_neg, neg_mul]

theorem Step.curl2 (h : Step c p A E g) (hD : p.nDim = 3) (k j i : ℤ) (hA : onA A 2 (k, j, i)) (hi : ¬ injected p 2 (k, j, i)) :
    (Child.dims.map fun d => emfAt c p d 2 (k, j, i)).sum =
      p.dt / p.dx 0 * (dEb c p E g 1 (k, j, i+1) - dEb c p E g 1 (k, j, i)) +
      -(p.dt / p.dx 1) * (dEb c p E g 0 (k, j+1, i) - dEb c p E g 0 (k, j, i)) := by
  obtain ⟨w1, w2, w3, w4⟩ := h.wide
  obtain ⟨l0, l1, l2, l3, l4, l5⟩ := h.lo
  have hni := (notinj hi).2.2 rfl
  obtain ⟨hA1, hA2⟩ := hA.1 (by decide)
  obtain ⟨hA3, hA4⟩ := hA.2.1 (by decide)
  have P2 := planeW (p.dt / p.dx 0) (fun w => dEz c p E g 1 (k, j, w)) p.box.ks p.box.ke p.box.is p.box.ie k i (p.flx 4).isSome
    (p.flx 5).isSome (p.flx 0).isSome (p.flx 1).isSome w3 w1.le ((p.box.js ≤ j ∧ j ≤ p.box.je) ∧ p.nDim = 3)
    (fun hW a b cc d => hni cc d hW.1.1 hW.1.2 a b) (fun _ hs => by rw [l0 hs]; exact hA1) (fun _ hs => by rw [l1 hs]; exact hA2)
    (fun w => dEb c p E g 1 (k, j, w)) (fun w => edgeOn p 1 (k, j, w)) (fun w => dEb_cases _ _)
    (fun w => (edgeOn1 k j w).trans (and_congr_right fun _ => or_comm))
  have P1 := planeW (-(p.dt / p.dx 1)) (fun w => dEz c p E g 0 (k, w, i)) p.box.ks p.box.ke p.box.js p.box.je k j (p.flx 4).isSome
    (p.flx 5).isSome (p.flx 2).isSome (p.flx 3).isSome w3 w2.le ((p.box.is ≤ i ∧ i ≤ p.box.ie) ∧ p.nDim = 3)
    (fun hW a b cc d => hni hW.1.1 hW.1.2 cc d a b) (fun hW hs => by rw [l2 hs]; exact hA3)
    (fun hW hs => by rw [l3 hs]; exact hA4)
    (fun w => dEb c p E g 0 (k, w, i)) (fun w => edgeOn p 0 (k, w, i)) (fun w => dEb_cases _ _)
    (fun w => (edgeOn0 k w i).trans (and_congr_right fun _ => or_comm))
  refine Eq.trans ?_ (regroup2 P2 P1)
  obtain ⟨q0, q1, q2, q3, q4, q5⟩ := sidesR p
  obtain ⟨b0, b1, b2, b3, b4, b5⟩ := bnds p
  obtain ⟨o0, o1, o2, o3, o4, o5⟩ := outs p
  simp only [Child.dims, List.map_cons, List.map_nil, List.sum_cons, List.sum_nil]
  rw [(h.side1 (d := 0) rfl k j i).2.2, (h.side1 (d := 1) rfl k j i).2.2, (h.side2 (d := 2) rfl k j i).2.2,
    (h.side2 (d := 3) rfl k j i).2.2, (h.side3 (d := 4) rfl k j i).1, (h.side3 (d := 5) rfl k j i).1]
  rw [q0, q1, q2, q3, b0, b1, b2, b3, b4, b5, o0, o1, o2, o3]
  simp only [neg_neg, neg_mul]

end Athena.Smr
