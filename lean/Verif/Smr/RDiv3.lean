import Verif.Smr.RDiv2

/-!
# The face field after an exchange (C29, C63)
-/

namespace Athena.Smr

variable {R : Type*} [Field R] {nf : Nat}

open Child (normal)

variable {c : Child R nf} {p : Parent R nf} {A : Box} {E g : Fin 3 → Z3 → R}

theorem After.valB (h : Step c p A E g) {s s' : PState R nf} (ha : After c p s s') : s'.B = newB c p s := by
  obtain ⟨w, t, hw, hu, _, hB⟩ := unpack_mhd h.m h.e h.thick h.mhd s
  rw [ha.unique ⟨w, hw, hu⟩, hB]

theorem Step.zones (h : Step c p A E g) : p.zones ≠ [] := by
  obtain ⟨z, hz⟩ := h.inside.some
  intro e
  have := mem_zones.2 hz
  rw [e] at this; simp at this

/-- A face that is injected gets the mean of the fine field. -/
theorem Step.newB_inj (h : Step c p A E g) (s : PState R nf) (m : Fin 3) (hm : m.val < p.nDim) (z : Z3)
    (hi : injected p m z) : newB c p s m z = fldW c p m z := by
  have hD := h.dim
  obtain ⟨b0, b1, b2, b3, b4, b5⟩ := bnds p
  obtain ⟨o0, o1, o2, o3, o4, o5⟩ := outs p
  unfold newB injB
  rw [if_neg h.zones, if_pos ⟨by omega, hm⟩, if_pos (show z ∈ faces p m ∧ skip p m z = false from hi)]
  obtain ⟨k, j, i⟩ := z
  obtain ⟨hf, hk⟩ := hi
  simp only [Child.dims, List.map_cons, List.map_nil, List.sum_cons, List.sum_nil]
  rcases (by omega : m = 0 ∨ m = 1 ∨ m = 2) with rfl | rfl | rfl
  · simp [faces, List.mem_product, mem_rng] at hf
    simp only [skip, if_true, decide_eq_false_iff_not] at hk
    rw [(h.side1 (d := 0) rfl k j i).1, (h.side1 (d := 1) rfl k j i).1, (h.side2 (d := 2) rfl k j i).2.1,
      (h.side2 (d := 3) rfl k j i).2.1, (h.side3 (d := 4) rfl k j i).2.1, (h.side3 (d := 5) rfl k j i).2.1]
    rw [b0, b1, o2, o3, o4, o5]
    rw [if_neg (by tauto), if_neg (by tauto), if_neg (by tauto), if_neg (by tauto), if_neg (by omega), if_neg (by omega),
      if_neg (by omega), if_neg (by omega)]
    ring
  · simp [faces, List.mem_product, mem_rng] at hf
    simp only [skip, if_true, decide_eq_false_iff_not] at hk
    rw [if_neg (by decide)] at hk
    rw [(h.side1 (d := 0) rfl k j i).2.1, (h.side1 (d := 1) rfl k j i).2.1, (h.side2 (d := 2) rfl k j i).1,
      (h.side2 (d := 3) rfl k j i).1, (h.side3 (d := 4) rfl k j i).2.2, (h.side3 (d := 5) rfl k j i).2.2]
    rw [b2, b3, o0, o1, o4, o5]
    simp only [decide_eq_false_iff_not] at hk
    rw [if_neg (by omega), if_neg (by omega), if_neg (by tauto), if_neg (by tauto), if_neg (by tauto), if_neg (by tauto), 
      if_neg (by omega), if_neg (by omega)]
    ring
  · simp [faces, List.mem_product, mem_rng] at hf
    simp only [skip] at hk
    rw [if_neg (by decide), if_neg (by decide)] at hk
    rw [(h.side1 (d := 0) rfl k j i).2.2, (h.side1 (d := 1) rfl k j i).2.2, (h.side2 (d := 2) rfl k j i).2.2,
      (h.side2 (d := 3) rfl k j i).2.2, (h.side3 (d := 4) rfl k j i).1, (h.side3 (d := 5) rfl k j i).1]
    rw [b4, b5, o0, o1, o2, o3]
    simp only [decide_eq_false_iff_not] at hk
    rw [if_neg (by omega), if_neg (by omega), if_neg (by omega), if_neg (by omega), if_neg (by tauto), if_neg (by tauto), if_neg (by tauto), if_neg (by tauto)]
    ring

theorem dEb_2D (hD : p.nDim ≠ 3) (e : Fin 3) (he : e ≠ 2) (z : Z3) : dEb c p E g e z = 0 := by
  apply (dEb_cases e z).2
  obtain ⟨k, j, i⟩ := z
  rcases (by omega : e = 0 ∨ e = 1 ∨ e = 2) with rfl | rfl | rfl
  · rw [edgeOn0]; tauto
  · rw [edgeOn1]; tauto
  · exact absurd rfl he

/-- On every other face of the active zones the exchange is a constrained-transport update. -/
theorem Step.newB_ct (h : Step c p A E g) (s : PState R nf) (m : Fin 3) (hm : m.val < p.nDim) (z : Z3)
    (hA : onA A m z) (hi : ¬ injected p m z) :
    newB c p s m z = ct p.nDim p.dt p.dx (fun e z => - dEb c p E g e z) s.B m z := by
  have hD := h.dim
  unfold newB injB
  rw [if_neg h.zones, if_pos ⟨by omega, hm⟩, if_neg (show ¬ (z ∈ faces p m ∧ skip p m z = false) from hi)]
  obtain ⟨k, j, i⟩ := z
  rcases (by omega : m = 0 ∨ m = 1 ∨ m = 2) with rfl | rfl | rfl
  · rw [h.curl0 k j i hA hi]
    by_cases h3 : p.nDim = 3
    · simp [ct, h3, Parent.nextF, injS]; ring
    · simp [ct, h3, Parent.nextF, injS, dEb_2D h3 1 (by decide)]; ring
  · rw [h.curl1 k j i hA hi]
    by_cases h3 : p.nDim = 3
    · simp [ct, h3, Parent.nextF, injS]; ring
    · simp [ct, h3, Parent.nextF, injS, dEb_2D h3 0 (by decide)]; ring
  · have h3 : p.nDim = 3 := by have := h.m.dim3; simp at hm; omega
    rw [h.curl2 h3 k j i hA hi]
    simp [ct, Parent.nextF, injS]; ring

/-- Constrained transport keeps the divergence. -/
theorem div_ct (nDim : Nat) (h2 : nDim = 2 ∨ nDim = 3) (dt : R) (dx : Fin 3 → R) (hdx : ∀ m, dx m ≠ 0) (E B : Fin 3 → Z3 → R) (z : Z3) :
    divB nDim dx (ct nDim dt dx E B) z = divB nDim dx B z := by
  obtain ⟨k, j, i⟩ := z
  have h0 := hdx 0
  have h1 := hdx 1
  have h2' := hdx 2
  unfold divB
  rw [Fin.sum_univ_three, Fin.sum_univ_three]
  rcases h2 with rfl | rfl
  · simp [ct, Parent.nextF]
    field_simp
    ring
  · simp [ct, Parent.nextF]
    field_simp
    ring

theorem not_skip0 {z : Z3} (h : skip p 0 z = false) : (z.2.2 = p.box.is → (p.flx 0).isSome = false) ∧
    (z.2.2 = p.box.ie + 1 → (p.flx 1).isSome = false) := by
  simp [skip] at h; simp; exact h

theorem not_skip1 {z : Z3} (h : skip p 1 z = false) : (z.2.1 = p.box.js → (p.flx 2).isSome = false) ∧
    (z.2.1 = p.box.je + 1 → (p.flx 3).isSome = false) := by
  simp [skip] at h; simp; exact h

theorem not_skip2 {z : Z3} (h : skip p 2 z = false) : (z.1 = p.box.ks → (p.flx 4).isSome = false) ∧
    (z.1 = p.box.ke + 1 → (p.flx 5).isSome = false) := by
  simp [skip] at h; simp; exact h

theorem Step.face_out (h : Step c p A E g) {m : Fin 3} (hm : m.val < p.nDim) {z : Z3} (hz : z ∈ zonesF A) (hb : z ∉ zonesF p.box) :
    ¬ injected p m z ∧ ¬ injected p m (Parent.nextF m z) := by
  obtain ⟨k, j, i⟩ := z
  obtain ⟨l0, l1, l2, l3, l4, l5⟩ := h.lo
  have d3 := h.m.dim3
  rw [mem_zonesF] at hz hb
  rcases (by omega : m = 0 ∨ m = 1 ∨ m = 2) with rfl | rfl | rfl
  · constructor <;> rintro ⟨hf, hs⟩ <;> have := not_skip0 hs <;>
      simp [faces, List.mem_product, mem_rng, Parent.nextF] at hf hz hb this
    · by_cases e : i = p.box.ie + 1
      · have := l1 (by simpa using this.2 e); omega
      · omega
    · by_cases e : i + 1 = p.box.is
      · have := l0 (by simpa using this.1 e); omega
      · omega
  · constructor <;> rintro ⟨hf, hs⟩ <;> have := not_skip1 hs <;>
      simp [faces, List.mem_product, mem_rng, Parent.nextF] at hf hz hb this
    · by_cases e : j = p.box.je + 1
      · have := l3 (by simpa using this.2 e); omega
      · omega
    · by_cases e : j + 1 = p.box.js
      · have := l2 (by simpa using this.1 e); omega
      · omega
  · have hD : p.nDim = 3 := by simp at hm; omega
    constructor <;> rintro ⟨hf, hs⟩ <;> have := not_skip2 hs <;>
      simp [faces, List.mem_product, mem_rng, Parent.nextF] at hf hz hb this
    · by_cases e : k = p.box.ke + 1
      · have := l5 hD (by simpa using this.2 e); omega
      · omega
    · by_cases e : k + 1 = p.box.ks
      · have := l4 hD (by simpa using this.1 e); omega
      · omega

theorem onA_of {m : Fin 3} {z : Z3} (hz : z ∈ zonesF A) : onA A m z ∧ onA A m (Parent.nextF m z) := by
  obtain ⟨k, j, i⟩ := z
  rw [mem_zonesF] at hz
  simp at hz
  rcases (by omega : m = 0 ∨ m = 1 ∨ m = 2) with rfl | rfl | rfl <;> simp [onA, Parent.nextF] <;> omega

/-- **C63.** The exchange (with its correction of the EMFs) keeps the divergence of the field in every zone of the
coarse Grid that is not covered. -/
theorem uncovered_divergence_partial (h : Step c p A E g) (hdx : ∀ m, p.dx m ≠ 0) {s s' : PState R nf} (ha : After c p s s')
    {z : Z3} (hz : z ∈ zonesF A) (hb : z ∉ zonesF p.box) : divB p.nDim p.dx s'.B z = divB p.nDim p.dx s.B z := by
  rw [← div_ct p.nDim (by have := h.dim; have := h.m.dim3; omega) p.dt p.dx hdx (fun e z => - dEb c p E g e z) s.B z, ha.valB h]
  unfold divB
  apply Finset.sum_congr rfl
  intro m _
  by_cases hm : m.val < p.nDim
  · obtain ⟨f1, f2⟩ := h.face_out hm hz hb
    obtain ⟨a1, a2⟩ := onA_of (m := m) hz
    rw [if_pos hm, if_pos hm, h.newB_ct s m hm z a1 f1, h.newB_ct s m hm _ a2 f2]
  · rw [if_neg hm, if_neg hm]

/-! ## The covered zones -/

theorem avg_four (f : Z3 → R) (a b c d : Z3) : avg f [a, b, c, d] = (f a + f b + f c + f d) / 4 := by
  simp [avg]; norm_num; ring

theorem avg_eight (f : Z3 → R) (a b c d a' b' c' d' : Z3) : avg f [a, b, c, d, a', b', c', d'] =
    (f a + f b + f c + f d + f a' + f b' + f c' + f d') / 8 := by
  simp [avg]; norm_num; ring

/-- The mean over the fine faces of the fine constrained-transport update is the coarse update with the mean EMFs. -/
theorem avg_ct [CharZero R] (h : p.nDim = 2 ∨ p.nDim = 3) (dt : R) (dx : Fin 3 → R) (hdx : ∀ m, dx m ≠ 0) (g b0 : Fin 3 → Z3 → R)
    (m : Fin 3) (hm : m.val < p.nDim) (z : Z3) :
    avg (ct p.nDim dt (fun a => dx a / 2) g b0 m) (coveredB c p m z) =
      ct p.nDim dt dx (meanE c p g) (fun m z => avg (b0 m) (coveredB c p m z)) m z := by
  obtain ⟨k, j, i⟩ := z
  have h0 := hdx 0
  have h1 := hdx 1
  have h2' := hdx 2
  have ek : c.box.ks + 2 * (k + 1 - p.box.ks) = c.box.ks + 2 * (k - p.box.ks) + 1 + 1 := by ring
  have ej : c.box.js + 2 * (j + 1 - p.box.js) = c.box.js + 2 * (j - p.box.js) + 1 + 1 := by ring
  have ei : c.box.is + 2 * (i + 1 - p.box.is) = c.box.is + 2 * (i - p.box.is) + 1 + 1 := by ring
  rcases h with h | h <;> rcases (by omega : m = 0 ∨ m = 1 ∨ m = 2) with rfl | rfl | rfl <;>
    (try (exfalso; simp [h] at hm; done)) <;>
    simp [coveredB, coveredE, meanE, ct, h, offs, avg_one, avg_two, avg_four, Parent.nextF, ek, ej, ei] <;>
    field_simp <;> ring

theorem faces_onA (h : Step c p A E g) {m : Fin 3} {z : Z3} (hz : z ∈ faces p m) : onA A m z := by
  obtain ⟨k, j, i⟩ := z
  have hw := h.wide
  have key : ∀ k j i, (p.box.ks ≤ k ∧ k ≤ p.box.ke) → (p.box.js ≤ j ∧ j ≤ p.box.je) → (p.box.is ≤ i ∧ i ≤ p.box.ie) →
      (A.ks ≤ k ∧ k ≤ A.ke) ∧ (A.js ≤ j ∧ j ≤ A.je) ∧ (A.is ≤ i ∧ i ≤ A.ie) := by
    intro k j i a b cc
    have := h.inside.sub (show (k, j, i) ∈ zonesF p.box by rw [mem_zonesF]; simp; omega)
    rw [mem_zonesF] at this; simp at this; omega
  rcases (by omega : m = 0 ∨ m = 1 ∨ m = 2) with rfl | rfl | rfl <;>
    simp [faces, List.mem_product, mem_rng] at hz <;> simp [onA]
  · have := key k j p.box.is (by omega) (by omega) (by omega); omega
  · have := key k p.box.js i (by omega) (by omega) (by omega); omega
  · have := key p.box.ks j i (by omega) (by omega) (by omega); omega

/-- The last step of both Grids on the faces of the boundary between them: constrained transport with the EMFs `E`,
`g` of a coarse field that was the mean of the fine field before. -/
structure Moved (c : Child R nf) (p : Parent R nf) (E g : Fin 3 → Z3 → R) (s : PState R nf) (B0 b0 : Fin 3 → Z3 → R) : Prop where
  coarse : ∀ m z, m.val < p.nDim → z ∈ faces p m → skip p m z = true → s.B m z = ct p.nDim p.dt p.dx E B0 m z
  fine : ∀ m z, m.val < p.nDim → z ∈ faces p m → skip p m z = true → ∀ y ∈ coveredB c p m z,
    c.g.B m y = ct p.nDim p.dt (fun a => p.dx a / 2) g b0 m y
  before : ∀ m z, m.val < p.nDim → z ∈ faces p m → skip p m z = true → B0 m z = avg (b0 m) (coveredB c p m z)

theorem avg_congr {f f' : Z3 → R} {l : List Z3} (h : ∀ y ∈ l, f y = f' y) : avg f l = avg f' l := by
  unfold avg
  rw [List.map_congr_left h]

theorem dEb_on {e : Fin 3} {z : Z3} (h : edgeOn p e z) : dEb c p E g e z = E e z - meanE c p g e z := (dEb_cases e z).1 h

/-- On a face of a boundary with stored fluxes the corrected EMFs are the mean fine ones. -/
theorem Step.ct_mean (h : Step c p A E g) (B0 B : Fin 3 → Z3 → R) {m : Fin 3} (hm : m.val < p.nDim) {z : Z3} (hf : z ∈ faces p m)
    (hs : skip p m z = true) (hB : B m z = ct p.nDim p.dt p.dx E B0 m z) :
    ct p.nDim p.dt p.dx (fun e z => - dEb c p E g e z) B m z = ct p.nDim p.dt p.dx (meanE c p g) B0 m z := by
  obtain ⟨k, j, i⟩ := z
  have d3 := h.m.dim3
  have hd := h.dim
  rcases (by omega : m = 0 ∨ m = 1 ∨ m = 2) with rfl | rfl | rfl
  · simp [faces, List.mem_product, mem_rng] at hf
    have hs' : (p.flx 0).isSome = true ∧ i = p.box.is ∨ (p.flx 1).isSome = true ∧ i = p.box.ie + 1 := by
      simp [skip] at hs; tauto
    have e1 : edgeOn p 2 (k, j, i) := by rw [edgeOn2]; exact ⟨by omega, Or.inl ⟨hs', by omega⟩⟩
    have e2 : edgeOn p 2 (k, j+1, i) := by rw [edgeOn2]; exact ⟨by omega, Or.inl ⟨hs', by omega⟩⟩
    by_cases hD : p.nDim = 3
    · have e3 : edgeOn p 1 (k, j, i) := by rw [edgeOn1]; exact ⟨by omega, Or.inl ⟨hs', by omega⟩⟩
      have e4 : edgeOn p 1 (k+1, j, i) := by rw [edgeOn1]; exact ⟨by omega, Or.inl ⟨hs', by omega⟩⟩
      simp [ct, Parent.nextF, hD] at hB ⊢
      rw [hB, dEb_on e1, dEb_on e2, dEb_on e3, dEb_on e4]; ring
    · simp [ct, Parent.nextF, hD] at hB ⊢
      rw [hB, dEb_on e1, dEb_on e2]; ring
  · simp [faces, List.mem_product, mem_rng] at hf
    have hs' : (p.flx 2).isSome = true ∧ j = p.box.js ∨ (p.flx 3).isSome = true ∧ j = p.box.je + 1 := by
      simp [skip] at hs; tauto
    have e1 : edgeOn p 2 (k, j, i) := by rw [edgeOn2]; exact ⟨by omega, Or.inr ⟨hs', by omega⟩⟩
    have e2 : edgeOn p 2 (k, j, i+1) := by rw [edgeOn2]; exact ⟨by omega, Or.inr ⟨hs', by omega⟩⟩
    by_cases hD : p.nDim = 3
    · have e3 : edgeOn p 0 (k, j, i) := by rw [edgeOn0]; exact ⟨by omega, Or.inl ⟨hs', by omega⟩⟩
      have e4 : edgeOn p 0 (k+1, j, i) := by rw [edgeOn0]; exact ⟨by omega, Or.inl ⟨hs', by omega⟩⟩
      simp [ct, Parent.nextF, hD] at hB ⊢
      rw [hB, dEb_on e1, dEb_on e2, dEb_on e3, dEb_on e4]; ring
    · simp [ct, Parent.nextF, hD] at hB ⊢
      rw [hB, dEb_on e1, dEb_on e2]; ring
  · have hD : p.nDim = 3 := by simp at hm; omega
    simp [faces, List.mem_product, mem_rng] at hf
    have hs' : (p.flx 4).isSome = true ∧ k = p.box.ks ∨ (p.flx 5).isSome = true ∧ k = p.box.ke + 1 := by
      simp [skip] at hs; tauto
    have e1 : edgeOn p 1 (k, j, i) := by rw [edgeOn1]; exact ⟨by omega, Or.inr ⟨hs', by omega⟩⟩
    have e2 : edgeOn p 1 (k, j, i+1) := by rw [edgeOn1]; exact ⟨by omega, Or.inr ⟨hs', by omega⟩⟩
    have e3 : edgeOn p 0 (k, j, i) := by rw [edgeOn0]; exact ⟨by omega, Or.inr ⟨hs', by omega⟩⟩
    have e4 : edgeOn p 0 (k, j+1, i) := by rw [edgeOn0]; exact ⟨by omega, Or.inr ⟨hs', by omega⟩⟩
    simp [ct, Parent.nextF] at hB ⊢
    rw [hB, dEb_on e1, dEb_on e2, dEb_on e3, dEb_on e4]; ring

/-- **C29.** After an exchange the field on every face of every covered coarse zone is the mean of the field on the
fine faces in it: on the faces inside by restriction, on the boundary of the region by the correction of the EMFs. -/
theorem faces_agree_partial [CharZero R] (h : Step c p A E g) (hdx : ∀ m, p.dx m ≠ 0) {s s' : PState R nf} (ha : After c p s s')
    {B0 b0 : Fin 3 → Z3 → R} (hmv : Moved c p E g s B0 b0) {m : Fin 3} (hm : m.val < p.nDim) {z : Z3} (hz : z ∈ faces p m) :
    s'.B m z = avg (c.g.B m) (coveredB c p m z) := by
  rw [ha.valB h]
  cases hs : skip p m z with
  | false => exact h.newB_inj s m hm z ⟨hz, hs⟩
  | true =>
    rw [h.newB_ct s m hm z (faces_onA h hz) (fun e => by rw [e.2] at hs; simp at hs),
      h.ct_mean B0 s.B hm hz hs (hmv.coarse m z hm hz hs), avg_congr (hmv.fine m z hm hz hs),
      avg_ct (by have := h.dim; have := h.m.dim3; omega) _ _ hdx _ _ m hm]
    have := hmv.before m z hm hz hs
    unfold ct
    rcases (by omega : m = 0 ∨ m = 1 ∨ m = 2) with rfl | rfl | rfl <;> simp [this]

/-- **C29.** After an exchange the divergence in every covered coarse zone is the mean of the divergence in the fine
zones in it. -/
theorem covered_divergence_partial [CharZero R] (h : Step c p A E g) (hdx : ∀ m, p.dx m ≠ 0) {s s' : PState R nf} (ha : After c p s s')
    {B0 b0 : Fin 3 → Z3 → R} (hmv : Moved c p E g s B0 b0) {z : Z3} (hz : z ∈ zonesF p.box) :
    divB p.nDim p.dx s'.B z = avg (divB p.nDim (fun a => p.dx a / 2) c.g.B) (covered c p z) := by
  have f1 : ∀ m : Fin 3, m.val < p.nDim → z ∈ faces p m ∧ Parent.nextF m z ∈ faces p m := by
    intro m _
    obtain ⟨k, j, i⟩ := z
    rw [mem_zonesF] at hz
    simp at hz
    rcases (by omega : m = 0 ∨ m = 1 ∨ m = 2) with rfl | rfl | rfl <;>
      simp [faces, List.mem_product, mem_rng, Parent.nextF] <;> omega
  have hB : ∀ m : Fin 3, m.val < p.nDim → s'.B m z = avg (c.g.B m) (coveredB c p m z) ∧
      s'.B m (Parent.nextF m z) = avg (c.g.B m) (coveredB c p m (Parent.nextF m z)) :=
    fun m hm => ⟨faces_agree_partial h hdx ha hmv hm (f1 m hm).1, faces_agree_partial h hdx ha hmv hm (f1 m hm).2⟩
  obtain ⟨k, j, i⟩ := z
  have h0 := hdx 0
  have h1 := hdx 1
  have h2' := hdx 2
  have ek : c.box.ks + 2 * (k + 1 - p.box.ks) = c.box.ks + 2 * (k - p.box.ks) + 1 + 1 := by ring
  have ej : c.box.js + 2 * (j + 1 - p.box.js) = c.box.js + 2 * (j - p.box.js) + 1 + 1 := by ring
  have ei : c.box.is + 2 * (i + 1 - p.box.is) = c.box.is + 2 * (i - p.box.is) + 1 + 1 := by ring
  unfold divB
  rw [Fin.sum_univ_three]
  rcases (by have := h.dim; have := h.m.dim3; omega : p.nDim = 2 ∨ p.nDim = 3) with hD | hD
  · rw [if_pos (by simp [hD]), if_pos (by simp [hD]), if_neg (by simp [hD]), (hB 0 (by simp [hD])).1, (hB 0 (by simp [hD])).2,
      (hB 1 (by simp [hD])).1, (hB 1 (by simp [hD])).2]
    simp [coveredB, covered, hD, offs, avg_one, avg_two, avg_four, Parent.nextF, ej, ei, Fin.sum_univ_three]
    field_simp; ring
  · rw [if_pos (by simp [hD]), if_pos (by simp [hD]), if_pos (by simp [hD]), (hB 0 (by simp [hD])).1, (hB 0 (by simp [hD])).2,
      (hB 1 (by simp [hD])).1, (hB 1 (by simp [hD])).2, (hB 2 (by simp [hD])).1, (hB 2 (by simp [hD])).2]
    simp [coveredB, covered, hD, offs, avg_one, avg_two, avg_four, avg_eight, Parent.nextF, ek, ej, ei, Fin.sum_univ_three]
    field_simp; ring

/-- **C29.** If the divergence was zero in all active coarse zones outside the region and is zero in the fine zones,
it is zero in all active coarse zones after the exchange. -/
theorem divergence_free_partial [CharZero R] (h : Step c p A E g) (hdx : ∀ m, p.dx m ≠ 0) {s s' : PState R nf} (ha : After c p s s')
    {B0 b0 : Fin 3 → Z3 → R} (hmv : Moved c p E g s B0 b0)
    (h0 : ∀ z ∈ zonesF A, z ∉ zonesF p.box → divB p.nDim p.dx s.B z = 0)
    (h1 : ∀ y ∈ zonesF c.box, divB p.nDim (fun a => p.dx a / 2) c.g.B y = 0) {z : Z3} (hz : z ∈ zonesF A) :
    divB p.nDim p.dx s'.B z = 0 := by
  by_cases hb : z ∈ zonesF p.box
  · rw [covered_divergence_partial h hdx ha hmv hb, avg_congr (f' := fun _ => 0)]
    · simp [avg]
    · intro y hy
      apply h1
      have e1 := h.m.x1
      have e2 := h.m.x2 h.dim
      have e3 := h.m.x3
      have e3' := h.m.x3'
      obtain ⟨k, j, i⟩ := z
      rw [mem_zonesF] at hb ⊢
      simp at hb
      rcases (by have := h.dim; have := h.m.dim3; omega : p.nDim = 2 ∨ p.nDim = 3) with hD | hD <;>
        simp [hD] at e3 e3' <;> simp [covered, hD, offs] at hy
      · rcases hy with rfl | rfl | rfl | rfl <;> simp <;> omega
      · rcases hy with rfl | rfl | rfl | rfl | rfl | rfl | rfl | rfl <;> simp <;> omega
  · rw [uncovered_divergence_partial h hdx ha hz hb, h0 z hz hb]

end Athena.Smr
