import Verif.Smr.RProps

/-!
# The face field after restriction and EMF correction (C29)
-/

namespace Athena.Smr

variable {R : Type*} [Field R] {nf : Nat}

open Child (normal)

/-! ## Specification -/

/-- Discrete divergence of a face field in zone `z`. -/
def divB (nDim : Nat) (dx : Fin 3 → R) (B : Fin 3 → Z3 → R) (z : Z3) : R :=
  ∑ m : Fin 3, if m.val < nDim then (B m (Parent.nextF m z) - B m z) / dx m else 0

/-- Constrained transport: the face field after a step with EMFs `E e z` on the edges (along `e`) of the zones
(src/integrators/integrate_3d_vl.c, Step 12; in 2D the terms with x3-differences are absent). -/
def ct (nDim : Nat) (dt : R) (dx : Fin 3 → R) (E : Fin 3 → Z3 → R) (B : Fin 3 → Z3 → R) (m : Fin 3) (z : Z3) : R :=
  let δ := fun (a e : Fin 3) => dt / dx a * (E e (Parent.nextF a z) - E e z)
  if m = 0 then B 0 z - δ 1 2 + (if nDim = 3 then δ 2 1 else 0)
  else if m = 1 then B 1 z + δ 0 2 - (if nDim = 3 then δ 2 0 else 0)
  else B 2 z - δ 0 1 + δ 1 0

/-- Transverse indices of the edges along `e` on a boundary normal to `m`. -/
def edgeF (b : Box) (m e : Fin 3) : Finset (ℤ × ℤ) :=
  if m = 0 then (if e = 2 then Finset.Icc b.ks b.ke ×ˢ Finset.Icc b.js (b.je + 1) else Finset.Icc b.ks (b.ke + 1) ×ˢ Finset.Icc b.js b.je)
  else if m = 1 then (if e = 2 then Finset.Icc b.ks b.ke ×ˢ Finset.Icc b.is (b.ie + 1) else Finset.Icc b.ks (b.ke + 1) ×ˢ Finset.Icc b.is b.ie)
  else (if e = 0 then Finset.Icc b.js (b.je + 1) ×ˢ Finset.Icc b.is b.ie else Finset.Icc b.js b.je ×ˢ Finset.Icc b.is (b.ie + 1))

/-- The stored EMFs are those of the field `E` of EMFs. -/
def StoredE (b : Box) (emf : Fin 3 → Fin 6 → Option (ℤ → ℤ → R)) (E : Fin 3 → Z3 → R) : Prop :=
  ∀ d e S, e ≠ normal d → emf e d = some S → ∀ x ∈ edgeF b (normal d) e,
    S (x.1 - (b.org (normal d)).1) (x.2 - (b.org (normal d)).2) = E e (put (normal d) x (b.bnd d))

/-- EMFs are stored where fluxes are. -/
structure EStore (p : Parent R nf) : Prop where
  e0 : ∀ d, normal d = 0 → (p.emf3 d).isSome = (p.flx d).isSome
  e1 : ∀ d, normal d = 1 → (p.emf3 d).isSome = (p.flx d).isSome
  e2 : ∀ d, normal d = 2 → (p.emf1 d).isSome = (p.flx d).isSome

/-- The fine edges in the coarse edge `z` along `e`. -/
def coveredE (c : Child R nf) (p : Parent R nf) (e : Fin 3) (z : Z3) : List Z3 :=
  (offs (e = 2 ∧ 3 ≤ p.nDim) ×ˢ (offs (e = 1 ∧ 2 ≤ p.nDim) ×ˢ offs (e = 0))).map fun o =>
    (c.box.ks + 2*(z.1 - p.box.ks) + o.1, c.box.js + 2*(z.2.1 - p.box.js) + o.2.1,
      c.box.is + 2*(z.2.2 - p.box.is) + o.2.2)

/-- Mean of the fine EMFs on the coarse edge `z`. -/
def meanE (c : Child R nf) (p : Parent R nf) (g : Fin 3 → Z3 → R) (e : Fin 3) (z : Z3) : R :=
  avg (g e) (coveredE c p e z)

/-! ## Lemmas -/

/-- Difference of the EMFs on an edge. -/
def dEz (c : Child R nf) (p : Parent R nf) (E g : Fin 3 → Z3 → R) (e : Fin 3) (z : Z3) : R := E e z - meanE c p g e z

theorem eW_mean {c : Child R nf} {p : Parent R nf} (h : Match c p) (h2 : 2 ≤ p.nDim) (g : Fin 3 → Z3 → R)
    (hg : StoredE c.box c.emf g) (d : Fin 6) (hd : (normal d).val < p.nDim) (e : Fin 3) (hne : e ≠ normal d)
    (he : e = 2 ∨ p.nDim = 3) (G : ℤ → ℤ → R) (hG : c.emf e d = some G) (x : ℤ × ℤ) (hx : x ∈ edgeF p.box (normal d) e) :
    eW p (normal d) e G x = meanE c p g e (put (normal d) x (p.box.bnd d)) := by
  have key : ∀ A B, ((c.box.org (normal d)).1 + A, (c.box.org (normal d)).2 + B) ∈ edgeF c.box (normal d) e →
      G A B = g e (put (normal d) ((c.box.org (normal d)).1 + A, (c.box.org (normal d)).2 + B) (c.box.bnd d)) := by
    intro A B hAB
    have := hg d e G hne hG _ hAB
    simpa using this
  have cg : ∀ e (k j i k' j' i' : ℤ), k = k' → j = j' → i = i' → g e (k, j, i) = g e (k', j', i') := by
    rintro e k j i k' j' i' rfl rfl rfl; rfl
  have e1 := h.x1
  have e2 := h.x2 h2
  have e3 := h.x3
  have e3' := h.x3'
  have d3 := h.dim3
  obtain ⟨a, b⟩ := x
  unfold eW meanE coveredE
  rcases normal_cases d with ⟨hn, hd2⟩ | ⟨hn, hd2⟩ | ⟨hn, hd2⟩ <;> rw [hn] at key hne hx hd ⊢ <;>
    rcases hd2 with rfl | rfl <;>
    rcases (by omega : e = 0 ∨ e = 1 ∨ e = 2) with rfl | rfl | rfl <;>
    (try exact absurd rfl hne) <;>
    rcases (by omega : p.nDim = 2 ∨ p.nDim = 3) with hD | hD <;>
    (try (exfalso; simp [hD] at he; done)) <;>
    (try (exfalso; simp [hD] at hd; done)) <;>
    simp [hD] at e3 e3' <;>
    simp [edgeF, put, Box.bnd, hn, Box.lo, Box.hi, Box.org, Parent.tb, offs, hD, avg_one, avg_two] at key hx ⊢
  all_goals
    first
      | exact (key _ _ (by omega) (by omega) (by omega) (by omega)).trans (cg _ _ _ _ _ _ _ (by omega) (by omega) (by omega))
      | exact Or.inl (congrArg₂ (· + ·)
          ((key _ _ (by omega) (by omega) (by omega) (by omega)).trans (cg _ _ _ _ _ _ _ (by omega) (by omega) (by omega)))
          ((key _ _ (by omega) (by omega) (by omega) (by omega)).trans (cg _ _ _ _ _ _ _ (by omega) (by omega) (by omega))))

theorem dO_at {c : Child R nf} {p : Parent R nf} (h : Match c p) (he : EMatch c p) (h2 : 2 ≤ p.nDim) (E g : Fin 3 → Z3 → R)
    (hE : StoredE p.box p.emf E) (hg : StoredE c.box c.emf g) (d : Fin 6) (hd : (normal d).val < p.nDim) (e : Fin 3)
    (hne : e ≠ normal d) (hes : e = 2 ∨ p.nDim = 3) (hs : (p.emf e d).isSome)
    (x : ℤ × ℤ) (hx : x ∈ edgeF p.box (normal d) e) :
    dO c p e d x = dEz c p E g e (put (normal d) x (p.box.bnd d)) := by
  obtain ⟨S, hS⟩ := Option.isSome_iff_exists.1 hs
  obtain ⟨G, hG⟩ := isSome_eq (he.same e d) hS
  unfold dO
  rw [hS, hG]
  dsimp only
  unfold dE dEz
  have torg : ((p.tb (normal d)).1.1, (p.tb (normal d)).2.1) = p.box.org (normal d) := by
    unfold Parent.tb Box.org; split_ifs <;> rfl
  have t1 : (p.tb (normal d)).1.1 = (p.box.org (normal d)).1 := by rw [← torg]
  have t2 : (p.tb (normal d)).2.1 = (p.box.org (normal d)).2 := by rw [← torg]
  rw [t1, t2, hE d e S hne hS x hx, eW_mean h h2 g hg d hd e hne hes G hG x hx]

/-! ## One edge direction in the plane perpendicular to it -/

theorem plane (Δ : ℤ → R) (us ue vs ve u v : ℤ) (a0 a1 b0 b1 : Bool) (hu : us ≤ ue) (hv : vs ≤ ve)
    (hinj : us ≤ u → u ≤ ue + 1 → vs ≤ v → v ≤ ve → (a0 = true ∧ u = us) ∨ (a1 = true ∧ u = ue + 1))
    (h0 : b0 = false → vs ≤ v) (h1 : b1 = false → v ≤ ve)
    (P : ℤ → R) (hP : ∀ w, P w = if ((a0 = true ∧ u = us ∨ a1 = true ∧ u = ue + 1) ∧ (vs ≤ w ∧ w ≤ ve + 1)) ∨
      ((b0 = true ∧ w = vs ∨ b1 = true ∧ w = ve + 1) ∧ (us ≤ u ∧ u ≤ ue + 1)) then Δ w else 0) :
    (if a0 = true ∧ u = us ∧ (vs ≤ v ∧ v ≤ ve) then Δ (v+1) - Δ v else 0) +
    (if a1 = true ∧ u = ue + 1 ∧ (vs ≤ v ∧ v ≤ ve) then Δ (v+1) - Δ v else 0) +
    (if b0 = true ∧ v = vs - 1 ∧ (us ≤ u ∧ u ≤ ue + 1) then Δ vs else 0) -
    (if b1 = true ∧ v = ve + 1 ∧ (us ≤ u ∧ u ≤ ue + 1) then Δ (ve+1) else 0) = P (v+1) - P v := by
  rw [hP, hP]
  by_cases c1 : v = vs - 1
  · subst c1
    rw [show vs - 1 + 1 = vs by ring]
    have : b0 = true := by cases b0 with
      | true => rfl
      | false => have := h0 rfl; omega
    rw [if_neg (by omega), if_neg (by omega), if_neg (c := b1 = true ∧ _) (by omega),
      if_neg (c := (_ ∧ (vs ≤ vs - 1 ∧ _)) ∨ _) (by omega)]
    by_cases c2 : us ≤ u ∧ u ≤ ue + 1
    · rw [if_pos ⟨this, rfl, c2⟩, if_pos (Or.inr ⟨Or.inl ⟨this, rfl⟩, c2⟩)]; ring
    · rw [if_neg (fun e => c2 e.2.2), if_neg (by omega)]; ring
  · by_cases c1' : v = ve + 1
    · subst c1'
      have : b1 = true := by cases b1 with
        | true => rfl
        | false => have := h1 rfl; omega
      rw [if_neg (by omega), if_neg (by omega), if_neg (c := b0 = true ∧ _) (by omega),
        if_neg (c := (_ ∧ (vs ≤ ve + 1 + 1 ∧ _)) ∨ _) (by omega)]
      by_cases c2 : us ≤ u ∧ u ≤ ue + 1
      · rw [if_pos ⟨this, rfl, c2⟩, if_pos (Or.inr ⟨Or.inr ⟨this, rfl⟩, c2⟩)]; ring
      · rw [if_neg (fun e => c2 e.2.2), if_neg (by omega)]; ring
    · rw [if_neg (c := b0 = true ∧ _) (by omega), if_neg (c := b1 = true ∧ _) (by omega)]
      by_cases c3 : vs ≤ v ∧ v ≤ ve
      · by_cases c2 : us ≤ u ∧ u ≤ ue + 1
        · rcases hinj c2.1 c2.2 c3.1 c3.2 with ⟨ha, rfl⟩ | ⟨ha, rfl⟩
          · rw [if_pos ⟨ha, rfl, c3⟩, if_neg (by omega), if_pos (Or.inl ⟨Or.inl ⟨ha, rfl⟩, by omega⟩),
              if_pos (Or.inl ⟨Or.inl ⟨ha, rfl⟩, by omega⟩)]; ring
          · rw [if_neg (by omega), if_pos ⟨ha, rfl, c3⟩, if_pos (Or.inl ⟨Or.inr ⟨ha, rfl⟩, by omega⟩),
              if_pos (Or.inl ⟨Or.inr ⟨ha, rfl⟩, by omega⟩)]; ring
        · rw [if_neg (by omega), if_neg (by omega), if_neg (by omega), if_neg (by omega)]; ring
      · rw [if_neg (by omega), if_neg (by omega), if_neg (by omega), if_neg (by omega)]; ring

/-! ## All boundaries together -/

/-- Is the edge `z` along `e` on a boundary with stored fluxes? -/
def edgeOn (p : Parent R nf) (e : Fin 3) (z : Z3) : Prop :=
  let b := p.box
  let st := fun d => (p.flx d).isSome
  let k := z.1
  let j := z.2.1
  let i := z.2.2
  if e = 2 then (b.ks ≤ k ∧ k ≤ b.ke) ∧
    (((st 0 = true ∧ i = b.is ∨ st 1 = true ∧ i = b.ie + 1) ∧ (b.js ≤ j ∧ j ≤ b.je + 1)) ∨
      ((st 2 = true ∧ j = b.js ∨ st 3 = true ∧ j = b.je + 1) ∧ (b.is ≤ i ∧ i ≤ b.ie + 1)))
  else if e = 1 then p.nDim = 3 ∧ (b.js ≤ j ∧ j ≤ b.je) ∧
    (((st 0 = true ∧ i = b.is ∨ st 1 = true ∧ i = b.ie + 1) ∧ (b.ks ≤ k ∧ k ≤ b.ke + 1)) ∨
      ((st 4 = true ∧ k = b.ks ∨ st 5 = true ∧ k = b.ke + 1) ∧ (b.is ≤ i ∧ i ≤ b.ie + 1)))
  else p.nDim = 3 ∧ (b.is ≤ i ∧ i ≤ b.ie) ∧
    (((st 2 = true ∧ j = b.js ∨ st 3 = true ∧ j = b.je + 1) ∧ (b.ks ≤ k ∧ k ≤ b.ke + 1)) ∨
      ((st 4 = true ∧ k = b.ks ∨ st 5 = true ∧ k = b.ke + 1) ∧ (b.js ≤ j ∧ j ≤ b.je + 1)))

open Classical in
/-- Difference of the EMFs on the edges of those boundaries, zero elsewhere. -/
noncomputable def dEb (c : Child R nf) (p : Parent R nf) (E g : Fin 3 → Z3 → R) (e : Fin 3) (z : Z3) : R :=
  if edgeOn p e z then dEz c p E g e z else 0

/-- Everything needed about the two Grids: a description of the overlap known to both, EMFs stored where fluxes are,
an overlap (inside the active zones `A`) more than one zone wide, and stored EMFs that are the EMFs of the step. -/
structure Step (c : Child R nf) (p : Parent R nf) (A : Box) (E g : Fin 3 → Z3 → R) : Prop where
  m : Match c p
  e : EMatch c p
  thick : Thick p
  mhd : p.mhd = true
  st : EStore p
  dim : 2 ≤ p.nDim
  inside : Inside p A
  act : A.ie = p.ie ∧ A.je = p.je ∧ (p.nDim = 3 → A.ke = p.ke)
  hE : StoredE p.box p.emf E
  hg : StoredE c.box c.emf g

variable {c : Child R nf} {p : Parent R nf} {A : Box} {E g : Fin 3 → Z3 → R}

theorem Step.wide (h : Step c p A E g) : p.box.is < p.box.ie ∧ p.box.js < p.box.je ∧ p.box.ks ≤ p.box.ke ∧
    (p.nDim = 3 → p.box.ks < p.box.ke) := by
  obtain ⟨z, hz⟩ := h.inside.some
  rcases h.thick with h1 | h1 | h1
  · have := mem_zones.2 hz; rw [h1] at this; simp at this
  · have := h.dim; omega
  · have := mem_zonesF.1 hz
    refine ⟨h1.1, h1.2.1, by omega, h1.2.2⟩

theorem Step.some3 (h : Step c p A E g) {d : Fin 6} (hn : normal d = 0 ∨ normal d = 1) (hs : (p.flx d).isSome) :
    (p.emf 2 d).isSome := by
  rcases hn with hn | hn
  · exact (h.st.e0 d hn).trans hs
  · exact (h.st.e1 d hn).trans hs

theorem Step.some2 (h : Step c p A E g) (hD : p.nDim = 3) {d : Fin 6} (hn : normal d = 0 ∨ normal d = 2) (hs : (p.flx d).isSome) :
    (p.emf 1 d).isSome := by
  rcases hn with hn | hn
  · exact h.e.e2 d hn hD ((h.st.e0 d hn).trans hs)
  · exact h.e.e2' d hn ((h.st.e2 d hn).trans hs)

theorem Step.some1 (h : Step c p A E g) (hD : p.nDim = 3) {d : Fin 6} (hn : normal d = 1 ∨ normal d = 2) (hs : (p.flx d).isSome) :
    (p.emf 0 d).isSome := by
  rcases hn with hn | hn
  · exact h.e.e1 d hn hD ((h.st.e1 d hn).trans hs)
  · exact (h.st.e2 d hn).trans hs

theorem Step.out1 (h : Step c p A E g) : (p.flx 1).isSome = false → p.box.ie = p.ie := by
  intro hs
  have := h.inside.outer 1 (by have := h.dim; simp [normal]; omega) hs
  simp [Box.bnd, Box.hi, normal] at this
  rw [this, h.act.1]

theorem Step.out3 (h : Step c p A E g) : (p.flx 3).isSome = false → p.box.je = p.je := by
  intro hs
  have := h.inside.outer 3 (by have := h.dim; simp [normal]; omega) hs
  simp [Box.bnd, Box.hi, normal] at this
  rw [this, h.act.2.1]

theorem Step.out5 (h : Step c p A E g) (hD : p.nDim = 3) : (p.flx 5).isSome = false → p.box.ke = p.ke := by
  intro hs
  have := h.inside.outer 5 (by simp [normal, hD]) hs
  simp [Box.bnd, Box.hi, normal] at this
  rw [this, h.act.2.2 hD]

theorem Step.use3 (h : Step c p A E g) : use3 p = true := by
  cases hs : (p.flx 3).isSome with
  | true => have := h.some3 (d := 3) (Or.inr rfl) hs; change (p.emf3 3).isSome = true at this; simp [Smr.use3, this]
  | false => simp [Smr.use3, h.out3 hs]

theorem Step.use3y (h : Step c p A E g) : use3y p = true := by
  cases hs : (p.flx 1).isSome with
  | true => have := h.some3 (d := 1) (Or.inl rfl) hs; change (p.emf3 1).isSome = true at this; simp [Smr.use3y, this]
  | false => simp [Smr.use3y, h.out1 hs]

theorem Step.use2 (h : Step c p A E g) (hD : p.nDim = 3) : use2 p = true := by
  cases hs : (p.flx 5).isSome with
  | true => have := h.some2 hD (d := 5) (Or.inr rfl) hs; change (p.emf2 5).isSome = true at this; simp [Smr.use2, this]
  | false => simp [Smr.use2, h.out5 hD hs]

theorem Step.use1y (h : Step c p A E g) (hD : p.nDim = 3) : use1y p = true := by
  cases hs : (p.flx 5).isSome with
  | true => have := h.some1 hD (d := 5) (Or.inr rfl) hs; change (p.emf1 5).isSome = true at this; simp [Smr.use1y, this]
  | false => simp [Smr.use1y, h.out5 hD hs]

theorem Step.use1z (h : Step c p A E g) (hD : p.nDim = 3) : use1z p = true := by
  cases hs : (p.flx 3).isSome with
  | true => have := h.some1 hD (d := 3) (Or.inl rfl) hs; change (p.emf1 3).isSome = true at this; simp [Smr.use1z, this]
  | false => simp [Smr.use1z, h.out3 hs]

theorem Step.use2z (h : Step c p A E g) (hD : p.nDim = 3) : use2z p = true := by
  cases hs : (p.flx 1).isSome with
  | true => have := h.some2 hD (d := 1) (Or.inl rfl) hs; change (p.emf2 1).isSome = true at this; simp [Smr.use2z, this]
  | false => simp [Smr.use2z, h.out1 hs]

/-- The differences on an x1-boundary. -/
theorem Step.d1 (h : Step c p A E g) {d : Fin 6} (hn : normal d = 0) (hs : (p.flx d).isSome) :
    (∀ k j, (p.box.ks ≤ k ∧ k ≤ p.box.ke) → (p.box.js ≤ j ∧ j ≤ p.box.je + 1) →
      dO c p 2 d (k, j) = dEz c p E g 2 (k, j, iBnd p d)) ∧
    (p.nDim = 3 → ∀ k j, (p.box.ks ≤ k ∧ k ≤ p.box.ke + 1) → (p.box.js ≤ j ∧ j ≤ p.box.je) →
      dO c p 1 d (k, j) = dEz c p E g 1 (k, j, iBnd p d)) := by
  have hb : p.box.bnd d = iBnd p d := by
    rcases normal_cases d with ⟨_, h1 | h1⟩ | ⟨h1, _⟩ | ⟨h1, _⟩
    · subst h1; rfl
    · subst h1; rfl
    · rw [hn] at h1; simp at h1
    · rw [hn] at h1; simp at h1
  constructor
  · intro k j hk hj
    rw [dO_at h.m h.e h.dim E g h.hE h.hg d (by rw [hn]; have := h.dim; simp; omega) 2 (by rw [hn]; decide) (Or.inl rfl)
      (h.some3 (Or.inl hn) hs) (k, j) (by rw [hn]; simp [edgeF]; omega), hn, hb]
    rfl
  · intro hD k j hk hj
    rw [dO_at h.m h.e h.dim E g h.hE h.hg d (by rw [hn]; have := h.dim; simp; omega) 1 (by rw [hn]; decide) (Or.inr hD)
      (h.some2 hD (Or.inl hn) hs) (k, j) (by rw [hn]; simp [edgeF]; omega), hn, hb]
    rfl

theorem Step.d2 (h : Step c p A E g) {d : Fin 6} (hn : normal d = 1) (hs : (p.flx d).isSome) :
    (∀ k i, (p.box.ks ≤ k ∧ k ≤ p.box.ke) → (p.box.is ≤ i ∧ i ≤ p.box.ie + 1) →
      dO c p 2 d (k, i) = dEz c p E g 2 (k, jBnd p d, i)) ∧
    (p.nDim = 3 → ∀ k i, (p.box.ks ≤ k ∧ k ≤ p.box.ke + 1) → (p.box.is ≤ i ∧ i ≤ p.box.ie) →
      dO c p 0 d (k, i) = dEz c p E g 0 (k, jBnd p d, i)) := by
  have hb : p.box.bnd d = jBnd p d := by
    rcases normal_cases d with ⟨h1, _⟩ | ⟨_, h1 | h1⟩ | ⟨h1, _⟩
    · rw [hn] at h1; simp at h1
    · subst h1; rfl
    · subst h1; rfl
    · rw [hn] at h1; simp at h1
  constructor
  · intro k j hk hj
    rw [dO_at h.m h.e h.dim E g h.hE h.hg d (by rw [hn]; have := h.dim; simp; omega) 2 (by rw [hn]; decide) (Or.inl rfl)
      (h.some3 (Or.inr hn) hs) (k, j) (by rw [hn]; simp [edgeF]; omega), hn, hb]
    rfl
  · intro hD k j hk hj
    rw [dO_at h.m h.e h.dim E g h.hE h.hg d (by rw [hn]; have := h.dim; simp; omega) 0 (by rw [hn]; decide) (Or.inr hD)
      (h.some1 hD (Or.inl hn) hs) (k, j) (by rw [hn]; simp [edgeF]; omega), hn, hb]
    rfl

theorem Step.d3 (h : Step c p A E g) (hD : p.nDim = 3) {d : Fin 6} (hn : normal d = 2) (hs : (p.flx d).isSome) :
    (∀ j i, (p.box.js ≤ j ∧ j ≤ p.box.je + 1) → (p.box.is ≤ i ∧ i ≤ p.box.ie) →
      dO c p 0 d (j, i) = dEz c p E g 0 (kBnd p d, j, i)) ∧
    (∀ j i, (p.box.js ≤ j ∧ j ≤ p.box.je) → (p.box.is ≤ i ∧ i ≤ p.box.ie + 1) →
      dO c p 1 d (j, i) = dEz c p E g 1 (kBnd p d, j, i)) := by
  have hb : p.box.bnd d = kBnd p d := by
    rcases normal_cases d with ⟨h1, _⟩ | ⟨h1, _⟩ | ⟨_, h1 | h1⟩
    · rw [hn] at h1; simp at h1
    · rw [hn] at h1; simp at h1
    · subst h1; rfl
    · subst h1; rfl
  constructor
  · intro k j hk hj
    rw [dO_at h.m h.e h.dim E g h.hE h.hg d (by rw [hn, hD]; decide) 0 (by rw [hn]; decide) (Or.inr hD)
      (h.some1 hD (Or.inr hn) hs) (k, j) (by rw [hn]; simp [edgeF]; omega), hn, hb]
    rfl
  · intro k j hk hj
    rw [dO_at h.m h.e h.dim E g h.hE h.hg d (by rw [hn, hD]; decide) 1 (by rw [hn]; decide) (Or.inr hD)
      (h.some2 hD (Or.inr hn) hs) (k, j) (by rw [hn]; simp [edgeF]; omega), hn, hb]
    rfl

end Athena.Smr
