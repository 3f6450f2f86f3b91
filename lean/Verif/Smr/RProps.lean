import Verif.Smr.RSum
import Mathlib.Algebra.BigOperators.Field

/-!
# Restriction and flux correction (C27, C28)

A child Grid `c` sends its message and the parent Grid `p` unpacks it.  `Real` is a field of characteristic 0.
-/

namespace Athena.Smr

variable {R : Type*} [Field R] {nf : Nat}

open Child (normal)

/-! ## Specification -/

/-- The parent is in state `s'` after receiving the message of the child in state `s`, and the whole message has
been used. -/
def After (c : Child R nf) (p : Parent R nf) (s s' : PState R nf) : Prop :=
  ∃ w, c.send = some w ∧ p.unpack (s, w) = some (s', [])

/-- The assumptions: both Grids have the same description of the overlap; with magnetic field the EMFs are stored
where the fluxes are, and the overlap is more than one coarse zone wide. -/
structure Exch (c : Child R nf) (p : Parent R nf) : Prop where
  m : Match c p
  mhd : p.mhd = true → EMatch c p ∧ Thick p

/-- Index of the boundary `d` in its normal direction: of the first face, or of the face after the last zone. -/
def Box.bnd (b : Box) (d : Fin 6) : ℤ := if d.val % 2 = 0 then b.lo (normal d) else b.hi (normal d) + 1

/-- A conservative step with fluxes `F` (`F m z` is the flux through the face between `z` and its neighbour on the
left in direction `m`) in all zones of a box. -/
def Update (nDim : Nat) (dt : R) (dx : Fin 3 → R) (b : Box) (F : Fin 3 → Z3 → R) (U0 U1 : Z3 → R) : Prop :=
  ∀ z ∈ zonesF b, U1 z = U0 z - ∑ m : Fin 3, if m.val < nDim then dt / dx m * (F m (Parent.nextF m z) - F m z) else 0

/-- The stored fluxes of variable `n` on the boundaries of a box are those of the field `F` of fluxes. -/
def Stored (b : Box) (flx : Fin 6 → Option (ℤ → ℤ → Var nf → R)) (n : Fin nf) (F : Fin 3 → Z3 → R) : Prop :=
  ∀ d S, flx d = some S → ∀ x ∈ faceF b (normal d),
    S (x.1 - (b.org (normal d)).1) (x.2 - (b.org (normal d)).2) (.f n) = F (normal d) (put (normal d) x (b.bnd d))

/-- Mean of the fine fluxes through the coarse face `x` of boundary `d`. -/
def fineFlux (c : Child R nf) (p : Parent R nf) (f : Fin 3 → Z3 → R) (d : Fin 6) (x : ℤ × ℤ) : R :=
  avg (fun y => f (normal d) (put (normal d) ((c.box.org (normal d)).1 + y.1, (c.box.org (normal d)).2 + y.2) (c.box.bnd d)))
    (coveredFace p (normal d) x)

/-- Flux through the coarse face `x` of the outer boundary `d` of the zones `A`: the mean of the fine fluxes if the
face belongs to the child and the boundary of the child is a part of the outer boundary. -/
def outerFlux (c : Child R nf) (p : Parent R nf) (A : Box) (F f : Fin 3 → Z3 → R) (d : Fin 6) (x : ℤ × ℤ) : R :=
  if p.box.bnd d = A.bnd d ∧ x ∈ faceF p.box (normal d) then fineFlux c p f d x
  else F (normal d) (put (normal d) x (A.bnd d))

/-! ## Restriction -/

theorem exchange {c : Child R nf} {p : Parent R nf} (h : Exch c p) (s : PState R nf) :
    ∃ s', After c p s s' ∧ ∀ z n, s'.U (z, .f n) = newU c p s (z, .f n) := by
  cases hm : p.mhd with
  | false =>
    obtain ⟨w, hw, hu⟩ := unpack_hydro h.m hm s
    exact ⟨_, ⟨w, hw, hu⟩, fun z n => rfl⟩
  | true =>
    obtain ⟨w, s', hw, hu, hU, _⟩ := unpack_mhd h.m (h.mhd hm).1 (h.mhd hm).2 hm s
    exact ⟨s', ⟨w, hw, hu⟩, hU⟩

theorem After.unique {c : Child R nf} {p : Parent R nf} {s a b : PState R nf} (h : After c p s a) (h' : After c p s b) :
    a = b := by
  obtain ⟨w, hw, hu⟩ := h
  obtain ⟨w', hw', hu'⟩ := h'
  rw [hw] at hw'
  cases hw'
  rw [hu] at hu'
  simpa using hu'

theorem After.val {c : Child R nf} {p : Parent R nf} (h : Exch c p) {s s' : PState R nf} (ha : After c p s s') (z : Z3)
    (n : Fin nf) : s'.U (z, .f n) = newU c p s (z, .f n) := by
  obtain ⟨t, ht, hv⟩ := exchange h s
  rw [ha.unique ht, hv]

/-- **C27.** The exchange of every overlap succeeds: the message has the length the parent expects. -/
theorem restrict_succeeds_partial {c : Child R nf} {p : Parent R nf} (h : Exch c p) (s : PState R nf) :
    ∃ s', After c p s s' := by
  obtain ⟨s', ha, _⟩ := exchange h s
  exact ⟨s', ha⟩

/-- **C27.** Every covered coarse zone holds the average of the fine zones in it. -/
theorem restrict_average {c : Child R nf} {p : Parent R nf} (h : Exch c p) {s s' : PState R nf} (ha : After c p s s')
    {n : Fin nf} (hn : Var.f n ∈ p.vs) {z : Z3} (hz : z ∈ zonesF p.box) :
    s'.U (z, .f n) = ((covered c p z).map fun y => c.g.U (y, .f n)).sum / 2^p.nDim := by
  rw [ha.val h, newU, if_pos (List.mem_product.2 ⟨mem_zones.2 hz, hn⟩)]
  simp only [corrAt_box h.m _ hz]
  rw [consW, avg, length_covered c p h.m.dim1 h.m.dim3]
  simp [Child.dims]

/-- **C27.** The integral of every conserved variable over the region is the same on parent and child
(`V` is the volume of a coarse zone). -/
theorem restrict_integral [CharZero R] {c : Child R nf} {p : Parent R nf} (h : Exch c p) {s s' : PState R nf}
    (ha : After c p s s') {n : Fin nf} (hn : Var.f n ∈ p.vs) (V : R) :
    (∑ z ∈ zonesF p.box, s'.U (z, .f n)) * V = (∑ y ∈ zonesF c.box, c.g.U (y, .f n)) * (V / 2^p.nDim) := by
  rw [group3 h.m, Finset.sum_congr rfl (fun z hz => restrict_average h ha hn hz), ← Finset.sum_div]
  ring

/-- **C27.** Nothing changes in zones that are neither covered nor next to a boundary with stored fluxes. -/
theorem restrict_elsewhere {c : Child R nf} {p : Parent R nf} (h : Exch c p) {s s' : PState R nf} (ha : After c p s s')
    {n : Fin nf} (hn : Var.f n ∈ p.vs) {z : Z3} (hz : z ∉ zonesF p.box)
    (ho : ∀ d, (p.flx d).isSome → ∀ x ∈ faceF p.box (normal d), p.outside d x ≠ z) : s'.U (z, .f n) = s.U (z, .f n) := by
  rw [ha.val h, newU, if_neg (fun e => hz (mem_zones.1 (List.mem_product.1 e).1))]
  have : ∀ d, corrAt c p d (z, .f n) = 0 := by
    intro d
    cases hF : p.flx d with
    | none => exact corrAt_none d hF _
    | some F =>
      obtain ⟨G, hG⟩ := isSome_eq (h.m.side d) hF
      rw [corrAt_sum h.m.nodup d F G hF hG z _ hn]
      apply Finset.sum_eq_zero
      intro x hx
      rw [if_neg (ho d (by rw [hF]; rfl) x hx)]
  simp [this, Child.dims]

/-! ## Flux correction -/

/-- All corrections of boundary `d` together, if the zones outside belong to the set `S`. -/
theorem corr_total {c : Child R nf} {p : Parent R nf} (h : Match c p) {n : Fin nf} (hn : Var.f n ∈ p.vs) (d : Fin 6)
    (F f : Fin 3 → Z3 → R) (hF : Stored p.box p.flx n F) (hf : Stored c.box c.flx n f) (S : Finset Z3)
    (hS : (p.flx d).isSome → ∀ x ∈ faceF p.box (normal d), p.outside d x ∈ S) :
    ∑ z ∈ S, corrAt c p d (z, .f n) = if (p.flx d).isSome then
      -(p.q d * ∑ x ∈ faceF p.box (normal d), (F (normal d) (put (normal d) x (p.box.bnd d)) - fineFlux c p f d x)) else 0 := by
  cases hP : p.flx d with
  | none => simp [corrAt_none d hP]
  | some P =>
    obtain ⟨G, hG⟩ := isSome_eq (h.side d) hP
    have hd := h.sideDim d (by rw [hP]; rfl)
    simp only [corrAt_sum h.nodup d P G hP hG _ _ hn, Option.isSome_some, if_true]
    rw [Finset.sum_comm, Finset.mul_sum, ← Finset.sum_neg_distrib]
    apply Finset.sum_congr rfl
    intro x hx
    rw [Finset.sum_ite_eq, if_pos (hS (by rw [hP]; rfl) x hx)]
    unfold fluxDelta
    dsimp only
    have torg : ((p.tb (normal d)).1.1, (p.tb (normal d)).2.1) = p.box.org (normal d) := by
      unfold Parent.tb Box.org; split_ifs <;> rfl
    have t1 : (p.tb (normal d)).1.1 = (p.box.org (normal d)).1 := by rw [← torg]
    have t2 : (p.tb (normal d)).2.1 = (p.box.org (normal d)).2 := by rw [← torg]
    congr 3
    · rw [t1, t2, hF d P hP x hx]
    · unfold flxW fineFlux avg
      dsimp only
      congr 2
      apply List.map_congr_left
      rintro ⟨y1, y2⟩ hy
      obtain ⟨x1, x2⟩ := x
      have hin : ((c.box.org (normal d)).1 + y1, (c.box.org (normal d)).2 + y2) ∈ faceF c.box (normal d) := by
        have e1 := h.x1
        have e3 := h.g3
        have e2 := h.g2
        have d3 := h.dim3
        rcases normal_cases d with ⟨hd', hd2⟩ | ⟨hd', hd2⟩ | ⟨hd', hd2⟩ <;> rw [hd'] at hx hy ⊢ <;>
          rcases (by omega : p.nDim = 1 ∨ p.nDim = 2 ∨ p.nDim = 3) with hD | hD | hD <;>
          simp [hD] at e2 e3 <;>
          simp [coveredFace, Parent.tb, offs, faceF, Box.org, hD] at hx hy ⊢ <;>
          first
            | omega
            | (rcases hd2 with rfl | rfl <;> simp [hD] at hd)
      have := hf d G hG _ hin
      simp only [add_sub_cancel_left] at this
      rw [this]

/-- All fluxes through the fine faces of boundary `d`. -/
theorem fine_total [CharZero R] {c : Child R nf} {p : Parent R nf} (h : Match c p) (d : Fin 6)
    (hd : (normal d).val < p.nDim) (f : Fin 3 → Z3 → R) :
    (∑ y ∈ faceF c.box (normal d), f (normal d) (put (normal d) y (c.box.bnd d))) * (2 / 2^p.nDim) =
      ∑ x ∈ faceF p.box (normal d), fineFlux c p f d x := by
  rw [groupF h _ hd, Finset.sum_mul]
  apply Finset.sum_congr rfl
  intro x _
  unfold fineFlux avg
  have hl := length_coveredFace p h.dim3 _ hd x
  have hl' : (2 : R) * ((coveredFace p (normal d) x).length : R) = 2^p.nDim := by
    have := congrArg (Nat.cast : ℕ → R) hl
    push_cast at this
    exact this
  rw [← hl']
  have : ((coveredFace p (normal d) x).length : R) ≠ 0 := by
    intro e
    rw [e, mul_zero] at hl'
    exact absurd hl'.symm (pow_ne_zero _ two_ne_zero)
  field_simp

/-- The two boundaries normal to `m`. -/
def lower (m : Fin 3) : Fin 6 := ⟨2*m.val, by omega⟩
/-- The two boundaries normal to `m`. -/
def upper (m : Fin 3) : Fin 6 := ⟨2*m.val + 1, by omega⟩

theorem normal_lower (m : Fin 3) : normal (lower m) = m := by
  unfold normal lower; ext; simp
theorem normal_upper (m : Fin 3) : normal (upper m) = m := by
  unfold normal upper; ext; simp; omega

/-- The step, and how the region `A` of the parent Grid contains the overlap: a boundary of the overlap with stored
fluxes has zones of `A` outside, any other one is a part of the boundary of `A`. -/
structure Inside (p : Parent R nf) (A : Box) : Prop where
  some : ∃ z, z ∈ zonesF p.box
  sub : zonesF p.box ⊆ zonesF A
  stored : ∀ d, (normal d).val < p.nDim → (p.flx d).isSome → ∀ x ∈ faceF p.box (normal d), p.outside d x ∈ zonesF A
  outer : ∀ d, (normal d).val < p.nDim → (p.flx d).isSome = false → p.box.bnd d = A.bnd d
  inner : ∀ d, (normal d).val < p.nDim → (p.flx d).isSome → p.box.bnd d ≠ A.bnd d

theorem zone_of (b : Box) (m : Fin 3) (x : ℤ × ℤ) (t : ℤ) (hx : x ∈ faceF b m) (h1 : b.lo m ≤ t) (h2 : t ≤ b.hi m) :
    put m x t ∈ zonesF b := by
  rw [mem_zonesF]
  rcases (by omega : m = 0 ∨ m = 1 ∨ m = 2) with rfl | rfl | rfl <;>
    simp [faceF, put, Box.lo, Box.hi] at * <;> tauto

theorem face_of (b : Box) (m : Fin 3) (x : ℤ × ℤ) (t : ℤ) (h : put m x t ∈ zonesF b) : x ∈ faceF b m := by
  rw [mem_zonesF] at h
  rcases (by omega : m = 0 ∨ m = 1 ∨ m = 2) with rfl | rfl | rfl <;>
    simp [faceF, put] at * <;> tauto

theorem lohi (b : Box) (m : Fin 3) {z : Z3} (h : z ∈ zonesF b) : b.lo m ≤ b.hi m := by
  rw [mem_zonesF] at h
  rcases (by omega : m = 0 ∨ m = 1 ∨ m = 2) with rfl | rfl | rfl <;> simp [Box.lo, Box.hi] <;> omega

theorem bnd_lower (b : Box) (m : Fin 3) : b.bnd (lower m) = b.lo m := by
  rw [Box.bnd, normal_lower]; simp [lower]
theorem bnd_upper (b : Box) (m : Fin 3) : b.bnd (upper m) = b.hi m + 1 := by
  rw [Box.bnd, normal_upper]
  have : (upper m).val % 2 = 1 := by simp only [upper]; omega
  rw [this]; simp

/-- The flux through the outer boundary `d` of the region, summed. -/
theorem outer_total {c : Child R nf} {p : Parent R nf} {A : Box} (hA : Inside p A) (F f : Fin 3 → Z3 → R) (d : Fin 6)
    (hd : (normal d).val < p.nDim) :
    ∑ x ∈ faceF A (normal d), outerFlux c p A F f d x =
      (∑ x ∈ faceF A (normal d), F (normal d) (put (normal d) x (A.bnd d))) +
      if (p.flx d).isSome then 0 else
        ∑ x ∈ faceF p.box (normal d), (fineFlux c p f d x - F (normal d) (put (normal d) x (p.box.bnd d))) := by
  by_cases hs : (p.flx d).isSome
  · rw [if_pos hs, add_zero]
    apply Finset.sum_congr rfl
    intro x _
    rw [outerFlux, if_neg]
    intro e
    exact hA.inner d hd hs e.1
  · rw [if_neg hs]
    have hb := hA.outer d hd (by simpa using hs)
    have hsub : faceF p.box (normal d) ⊆ faceF A (normal d) := by
      intro x hx
      obtain ⟨z, hz⟩ := hA.some
      exact face_of A _ x _ (hA.sub (zone_of p.box _ x _ hx le_rfl (lohi _ _ hz)))
    rw [← Finset.sum_sdiff hsub, ← Finset.sum_sdiff (f := fun x => F (normal d) (put (normal d) x (A.bnd d))) hsub, add_assoc,
      ← Finset.sum_add_distrib]
    congr 1
    · apply Finset.sum_congr rfl
      intro x hx
      rw [outerFlux, if_neg (fun e => (Finset.mem_sdiff.1 hx).2 e.2)]
    · apply Finset.sum_congr rfl
      intro x hx
      rw [outerFlux, if_pos ⟨hb, hx⟩, hb]
      ring

/-- **C28.** Coarse and fine step followed by the exchange: the total of a conserved variable over the composite mesh
(zones of `A` that are not covered, and fine zones; `V` is the volume of a coarse zone) changes only by the fluxes
through the outer boundary of `A`. -/
theorem composite_conservative_partial [CharZero R] {c : Child R nf} {p : Parent R nf} (h : Exch c p) {s s' : PState R nf}
    (ha : After c p s s') {n : Fin nf} (hn : Var.f n ∈ p.vs) {A : Box} (hA : Inside p A)
    (F f : Fin 3 → Z3 → R) (hF : Stored p.box p.flx n F) (hf : Stored c.box c.flx n f) (U0 u0 : Z3 → R)
    (hU : Update p.nDim p.dt p.dx A F U0 (fun z => s.U (z, .f n)))
    (hu : Update p.nDim p.dt (fun m => p.dx m / 2) c.box f u0 (fun z => c.g.U (z, .f n))) (V : R) :
    ((∑ z ∈ zonesF A \ zonesF p.box, s'.U (z, .f n)) * V + (∑ y ∈ zonesF c.box, c.g.U (y, .f n)) * (V / 2^p.nDim)) -
      ((∑ z ∈ zonesF A \ zonesF p.box, U0 z) * V + (∑ y ∈ zonesF c.box, u0 y) * (V / 2^p.nDim)) =
    -∑ m : Fin 3, if m.val < p.nDim then p.dt * (V / p.dx m) *
      ((∑ x ∈ faceF A m, outerFlux c p A F f (upper m) x) - ∑ x ∈ faceF A m, outerFlux c p A F f (lower m) x) else 0 := by
  obtain ⟨z0, hz0⟩ := hA.some
  -- coarse zones
  have hS : ∀ d, (p.flx d).isSome → ∀ x ∈ faceF p.box (normal d), p.outside d x ∈ zonesF A \ zonesF p.box := by
    intro d hd x hx
    have := h.m.sideDim d hd
    exact Finset.mem_sdiff.2 ⟨hA.stored d (by unfold normal; simp; omega) hd x hx, outside_not_mem p d x⟩
  have e1 : ∑ z ∈ zonesF A \ zonesF p.box, s'.U (z, .f n) =
      ∑ z ∈ zonesF A \ zonesF p.box, (s.U (z, .f n) + (Child.dims.map fun d => corrAt c p d (z, .f n)).sum) := by
    apply Finset.sum_congr rfl
    intro z hz
    rw [ha.val h, newU, if_neg (fun e => (Finset.mem_sdiff.1 hz).2 (mem_zones.1 (List.mem_product.1 e).1))]
  have e2 : ∑ z ∈ zonesF A \ zonesF p.box, s.U (z, .f n) = ∑ z ∈ zonesF A \ zonesF p.box, U0 z -
      ∑ m : Fin 3, if m.val < p.nDim then p.dt / p.dx m * ∑ z ∈ zonesF A \ zonesF p.box, (F m (Parent.nextF m z) - F m z) else 0 := by
    rw [Finset.sum_congr rfl (fun z hz => hU z (Finset.mem_sdiff.1 hz).1), Finset.sum_sub_distrib, Finset.sum_comm]
    congr 1
    apply Finset.sum_congr rfl
    intro m _
    split_ifs
    · rw [Finset.mul_sum]
    · simp
  have tel : ∀ (b : Box) (g : Fin 3 → Z3 → R) (m : Fin 3), b.lo m ≤ b.hi m + 1 →
      ∑ z ∈ zonesF b, (g m (Parent.nextF m z) - g m z) =
      (∑ x ∈ faceF b m, g m (put m x (b.bnd (upper m)))) - ∑ x ∈ faceF b m, g m (put m x (b.bnd (lower m))) := by
    intro b g m hb
    rw [tele3 m (g m) b hb, Finset.sum_sub_distrib, bnd_lower, bnd_upper]
  have hlo : ∀ m, p.box.lo m ≤ p.box.hi m + 1 := fun m => by have := lohi p.box m hz0; omega
  have hloA : ∀ m, A.lo m ≤ A.hi m + 1 := fun m => by have := lohi A m (hA.sub hz0); omega
  have e3 : ∀ m, ∑ z ∈ zonesF A \ zonesF p.box, (F m (Parent.nextF m z) - F m z) =
      ((∑ x ∈ faceF A m, F m (put m x (A.bnd (upper m)))) - ∑ x ∈ faceF A m, F m (put m x (A.bnd (lower m)))) -
      ((∑ x ∈ faceF p.box m, F m (put m x (p.box.bnd (upper m)))) - ∑ x ∈ faceF p.box m, F m (put m x (p.box.bnd (lower m)))) := by
    intro m
    rw [← tel A F m (hloA m), ← tel p.box F m (hlo m), ← Finset.sum_sdiff hA.sub]
    ring
  have e4 : ∑ z ∈ zonesF A \ zonesF p.box, (Child.dims.map fun d => corrAt c p d (z, .f n)).sum =
      ∑ m : Fin 3, if m.val < p.nDim then
        ((∑ z ∈ zonesF A \ zonesF p.box, corrAt c p (lower m) (z, .f n)) +
          ∑ z ∈ zonesF A \ zonesF p.box, corrAt c p (upper m) (z, .f n)) else 0 := by
    have hz : ∀ m : Fin 3, ¬ m.val < p.nDim → ∀ z, corrAt c p (lower m) (z, Var.f n) = 0 ∧ corrAt c p (upper m) (z, Var.f n) = 0 := by
      intro m hm z
      have : ∀ d, normal d = m → p.flx d = none := by
        intro d hd
        by_contra hc
        have := h.m.sideDim d (Option.isSome_iff_ne_none.2 hc)
        have hv : (normal d).val = m.val := by rw [hd]
        unfold normal at hv; simp at hv; omega
      exact ⟨corrAt_none _ (this _ (normal_lower m)) _, corrAt_none _ (this _ (normal_upper m)) _⟩
    have : ∀ m : Fin 3, (if m.val < p.nDim then
        ((∑ z ∈ zonesF A \ zonesF p.box, corrAt c p (lower m) (z, Var.f n)) +
          ∑ z ∈ zonesF A \ zonesF p.box, corrAt c p (upper m) (z, Var.f n)) else 0) =
        ∑ z ∈ zonesF A \ zonesF p.box, (corrAt c p (lower m) (z, Var.f n) + corrAt c p (upper m) (z, Var.f n)) := by
      intro m
      rw [← Finset.sum_add_distrib]
      by_cases hm : m.val < p.nDim
      · rw [if_pos hm]
      · rw [if_neg hm, Finset.sum_eq_zero]
        intro z _
        rw [(hz m hm z).1, (hz m hm z).2, add_zero]
    rw [Finset.sum_congr rfl (fun m _ => this m), Finset.sum_comm]
    apply Finset.sum_congr rfl
    intro z _
    rw [Fin.sum_univ_three]
    simp only [Child.dims, List.map_cons, List.map_nil, List.sum_cons, List.sum_nil, add_zero, lower, upper]
    have a : ((⟨2 * (0 : Fin 3).val, by omega⟩ : Fin 6) = 0) ∧ ((⟨2 * (1 : Fin 3).val, by omega⟩ : Fin 6) = 2) ∧
      ((⟨2 * (2 : Fin 3).val, by omega⟩ : Fin 6) = 4) ∧ ((⟨2 * (0 : Fin 3).val + 1, by omega⟩ : Fin 6) = 1) ∧
      ((⟨2 * (1 : Fin 3).val + 1, by omega⟩ : Fin 6) = 3) ∧ ((⟨2 * (2 : Fin 3).val + 1, by omega⟩ : Fin 6) = 5) := by decide
    rw [a.1, a.2.1, a.2.2.1, a.2.2.2.1, a.2.2.2.2.1, a.2.2.2.2.2]
    ring
  have ct := fun d => corr_total h.m hn d F f hF hf _ (hS d)
  have q1 : ∀ m, p.q (lower m) = -(p.dt / p.dx m) := by
    intro m; unfold Parent.q; rw [normal_lower, if_pos (by simp [lower])]
  have q2 : ∀ m, p.q (upper m) = p.dt / p.dx m := by
    intro m; unfold Parent.q; rw [normal_upper, if_neg (by simp only [upper]; omega)]
  -- fine zones
  have e5 : ∑ y ∈ zonesF c.box, c.g.U (y, .f n) = ∑ y ∈ zonesF c.box, u0 y -
      ∑ m : Fin 3, if m.val < p.nDim then p.dt / (p.dx m / 2) * ∑ z ∈ zonesF c.box, (f m (Parent.nextF m z) - f m z) else 0 := by
    rw [Finset.sum_congr rfl (fun z hz => hu z hz), Finset.sum_sub_distrib, Finset.sum_comm]
    congr 1
    apply Finset.sum_congr rfl
    intro m _
    split_ifs
    · rw [Finset.mul_sum]
    · simp
  have hloc : ∀ m : Fin 3, m.val < p.nDim → c.box.lo m ≤ c.box.hi m + 1 := by
    intro m hm
    rw [mem_zonesF] at hz0
    have x1 := h.m.x1
    have x2 := h.m.x2
    have x3 := h.m.x3
    rcases (by omega : m = 0 ∨ m = 1 ∨ m = 2) with rfl | rfl | rfl <;> simp [Box.lo, Box.hi] at hm ⊢ <;> omega
  have ft := fun m (hm : m.val < p.nDim) => fine_total h.m (lower m) (by rw [normal_lower]; exact hm) f
  have ft' := fun m (hm : m.val < p.nDim) => fine_total h.m (upper m) (by rw [normal_upper]; exact hm) f
  have ot := fun m (hm : m.val < p.nDim) => outer_total (c := c) hA F f (lower m) (by rw [normal_lower]; exact hm)
  have ot' := fun m (hm : m.val < p.nDim) => outer_total (c := c) hA F f (upper m) (by rw [normal_upper]; exact hm)
  simp only [normal_lower, normal_upper] at ft ft' ot ot'
  rw [e1, Finset.sum_add_distrib, e2, e4, e5]
  have key : ∀ m : Fin 3, (if m.val < p.nDim then
        ((∑ z ∈ zonesF A \ zonesF p.box, corrAt c p (lower m) (z, Var.f n)) +
          ∑ z ∈ zonesF A \ zonesF p.box, corrAt c p (upper m) (z, Var.f n)) else 0) * V -
      (if m.val < p.nDim then p.dt / p.dx m * ∑ z ∈ zonesF A \ zonesF p.box, (F m (Parent.nextF m z) - F m z) else 0) * V -
      (if m.val < p.nDim then p.dt / (p.dx m / 2) * ∑ z ∈ zonesF c.box, (f m (Parent.nextF m z) - f m z) else 0) * (V / 2^p.nDim) =
      -(if m.val < p.nDim then p.dt * (V / p.dx m) *
      ((∑ x ∈ faceF A m, outerFlux c p A F f (upper m) x) - ∑ x ∈ faceF A m, outerFlux c p A F f (lower m) x) else 0) := by
    intro m
    by_cases hm : m.val < p.nDim
    · simp only [if_pos hm]
      rw [ot m hm, ot' m hm, e3 m, ct, ct, q1, q2, normal_lower, normal_upper, tel c.box f m (hloc m hm)]
      have a1 := ft m hm
      have a2 := ft' m hm
      have hfin : p.dt / (p.dx m / 2) * ((∑ x ∈ faceF c.box m, f m (put m x (c.box.bnd (upper m)))) -
          ∑ x ∈ faceF c.box m, f m (put m x (c.box.bnd (lower m)))) * (V / 2^p.nDim) =
          p.dt / p.dx m * V * ((∑ x ∈ faceF p.box m, fineFlux c p f (upper m) x) - ∑ x ∈ faceF p.box m, fineFlux c p f (lower m) x) := by
        rw [← a1, ← a2]
        rw [show p.dt / (p.dx m / 2) = p.dt / p.dx m * 2 by rw [div_div_eq_mul_div]; ring]
        ring
      rw [hfin]
      simp only [Finset.sum_sub_distrib]
      split_ifs <;> ring
    · simp only [if_neg hm]; ring
  have := Finset.sum_congr rfl (fun m (_ : m ∈ (Finset.univ : Finset (Fin 3))) => key m)
  rw [Finset.sum_sub_distrib, Finset.sum_sub_distrib, ← Finset.sum_mul, ← Finset.sum_mul, ← Finset.sum_mul,
    Finset.sum_neg_distrib] at this
  rw [← this]
  ring

/-- Without magnetic field there is no restriction on the overlap. -/
theorem Match.exch {c : Child R nf} {p : Parent R nf} (h : Match c p) (hm : p.mhd = false) : Exch c p :=
  ⟨h, fun e => by rw [hm] at e; simp at e⟩

/-- **C28.** Hydrodynamics: overlaps of any size. -/
theorem composite_conservative_hydro [CharZero R] {c : Child R nf} {p : Parent R nf} (h : Match c p) (hm : p.mhd = false)
    {s s' : PState R nf}
    (ha : After c p s s') {n : Fin nf} (hn : Var.f n ∈ p.vs) {A : Box} (hA : Inside p A)
    (F f : Fin 3 → Z3 → R) (hF : Stored p.box p.flx n F) (hf : Stored c.box c.flx n f) (U0 u0 : Z3 → R)
    (hU : Update p.nDim p.dt p.dx A F U0 (fun z => s.U (z, .f n)))
    (hu : Update p.nDim p.dt (fun m => p.dx m / 2) c.box f u0 (fun z => c.g.U (z, .f n))) (V : R) :
    ((∑ z ∈ zonesF A \ zonesF p.box, s'.U (z, .f n)) * V + (∑ y ∈ zonesF c.box, c.g.U (y, .f n)) * (V / 2^p.nDim)) -
      ((∑ z ∈ zonesF A \ zonesF p.box, U0 z) * V + (∑ y ∈ zonesF c.box, u0 y) * (V / 2^p.nDim)) =
    -∑ m : Fin 3, if m.val < p.nDim then p.dt * (V / p.dx m) *
      ((∑ x ∈ faceF A m, outerFlux c p A F f (upper m) x) - ∑ x ∈ faceF A m, outerFlux c p A F f (lower m) x) else 0 :=
  composite_conservative_partial (h.exch hm) ha hn hA F f hF hf U0 u0 hU hu V

/-- **C27, C28.** Hydrodynamics: the exchange of overlaps of any size succeeds. -/
theorem exchange_succeeds_hydro {c : Child R nf} {p : Parent R nf} (h : Match c p) (hm : p.mhd = false) (s : PState R nf) :
    ∃ s', After c p s s' := restrict_succeeds_partial (h.exch hm) s

end Athena.Smr
