import Verif.Shear.State

/-!
# The shearing sheet: fluxes through the x1 edges

`RemapFlx_ix1()`, `RemapFlx_ox1()` of src/bvals_shear.c, the averaging with their result in the
three-dimensional integrators, and the totals over the Domain.  The fluxes themselves are whatever
the integrator has computed; the theorems hold for all of them.
-/

namespace Athena.Shear

/-- The remapped fluxes: "only By, d, M1, M2, M3 are remapped", src/bvals_shear.c:2066. `emf` is
`emf2`, kept in `B2c`. -/
inductive FVar where
  | emf | d | m1 | m2 | m3
  deriving DecidableEq

/-- Step 1 of both routines: the flux of M2 gets the velocity offset (not with FARGO),
src/bvals_shear.c:2071-2086, 2143-2151; 2589-2604, 2661-2669. -/
noncomputable def fluxOffset (q : ℝ) (f : FVar → ℝ) : FVar → ℝ
  | .m2 => f .m2 + q * f .d
  | v => f v

/-- One row of `RemapFlx_ix1` (src/bvals_shear.c:2024-2524) or `RemapFlx_ox1` (2537-3047): the
flux of the other edge, its ghost zones along x2, the remap and the shift. -/
noncomputable def flxRow (o : Order) (s : Edge) (C : Cut) (eps : ℝ) (joff : ℤ)
    (rows : ℤ → ℤ → ℝ) : Res (ℤ → ℤ → ℝ) :=
  shift s C joff (fun l => remap o eps (ghostY C rows l))

/-- `RemapFlx_ix1` or `RemapFlx_ox1` for one row.  `opp`: the fluxes at the opposite edge. -/
noncomputable def remapFlx (o : Order) (s : Edge) (C : Cut) (fargo : Bool) (B : Box)
    (opp : ℤ → ℤ → FVar → ℝ) (v : FVar) : Res (ℤ → ℤ → ℝ) :=
  flxRow o s C (epsOf s B.yshear B.ly B.dx2) (joffset B.yshear B.ly B.dx2)
    (fun l j => fluxOffset (bump fargo s B) (opp l j) v)

/-- The flux used at an edge: the mean of its own and the remapped one,
src/integrators/integrate_3d_ctu.c:2656-2683, src/integrators/integrate_3d_vl.c:1234-1260 (and
582-606 in the predictor).  The code does this in every three-dimensional shearing box and does
not look at the boundary conditions along x1 (`_bc`). -/
noncomputable def edgeFlux (_bc : ℕ) (o : Order) (s : Edge) (C : Cut) (fargo : Bool) (B : Box)
    (own opp : ℤ → ℤ → FVar → ℝ) (v : FVar) : Res (ℤ → ℤ → ℝ) :=
  (remapFlx o s C fargo B opp v).bind fun r => .ok (fun l j => 1 / 2 * (own l j v + r l j))

/-! ## Specification -/

/-- The Grids at an edge hold the row `g` of fluxes of the whole Domain. -/
def HoldsF (C : Cut) (rows : ℤ → ℤ → FVar → ℝ) (g : ℤ → FVar → ℝ) : Prop :=
  ∀ v, HoldsIn C (fun l j => rows l j v) (fun m => g m v)

/-- The result for all fluxes. -/
def GivesF (bc : ℕ) (o : Order) (s : Edge) (C : Cut) (fargo : Bool) (B : Box)
    (own opp R : ℤ → ℤ → FVar → ℝ) : Prop :=
  ∀ v, edgeFlux bc o s C fargo B own opp v = .ok (fun l j => R l j v)

/-! ## One row -/

theorem flxRow_global {C : Cut} (h : C.Fit) (o : Order) (s : Edge) {B : Box} (hB : B.Fit C)
    {rows : ℤ → ℤ → ℝ} {g : ℤ → ℝ} (hr : HoldsIn C rows g) (per : ∀ m, g (m + C.total) = g m) :
    ∃ R, flxRow o s C (epsOf s B.yshear B.ly B.dx2) (joffset B.yshear B.ly B.dx2) rows = .ok R ∧
      HoldsIn C R (fun m => remap o (s.sign * Int.fract B.zones) g (m - s.sign * ⌊B.zones⌋)) := by
  have hN : 0 < C.total := by
    have := h.ngr; have := h.ng; have := h.nx
    exact mul_pos (by omega) (by omega)
  rw [hB.ly]
  obtain ⟨a, b, ⟨k, hk⟩, he⟩ := offset_facts hN hB.dx hB.fwd
  have pr : ∀ eps m, remap o eps g (m + C.total) = remap o eps g m := fun eps => remap_periodic o per eps
  obtain ⟨R, e, hR⟩ := shift_global h s a b
    (remap_global h o (epsOf s B.yshear (C.total * B.dx2) B.dx2) (ghostY_global h hr per)) (pr _)
  refine ⟨R, e, ?_⟩
  intro l l0 l1 j p q
  rw [hR l l0 l1 j p q, he s]
  dsimp only
  unfold Box.zones
  rw [hk, ← periodic_mul (remap_periodic o per _) (-s.sign * k)]
  congr 1; ring

/-- What the flux at an edge is. -/
theorem edgeFlux_value {C : Cut} (h : C.Fit) (bc : ℕ) (o : Order) (s : Edge) (fargo : Bool) {B : Box}
    (hB : B.Fit C) {own opp : ℤ → ℤ → FVar → ℝ} {f g : ℤ → FVar → ℝ} (ho : HoldsF C own f)
    (hp : HoldsF C opp g) (per : ∀ m, g (m + C.total) = g m) :
    ∃ R, GivesF bc o s C fargo B own opp R ∧ ∀ v, HoldsIn C (fun l j => R l j v) (fun m =>
      1 / 2 * (f m v + remap o (s.sign * Int.fract B.zones)
        (fun k => fluxOffset (bump fargo s B) (g k) v) (m - s.sign * ⌊B.zones⌋))) := by
  have key : ∀ v, ∃ R, edgeFlux bc o s C fargo B own opp v = .ok R ∧ HoldsIn C R (fun m =>
      1 / 2 * (f m v + remap o (s.sign * Int.fract B.zones)
        (fun k => fluxOffset (bump fargo s B) (g k) v) (m - s.sign * ⌊B.zones⌋))) := by
    intro v
    obtain ⟨r, e, hr⟩ := flxRow_global h o s hB
      (rows := fun l j => fluxOffset (bump fargo s B) (opp l j) v)
      (g := fun k => fluxOffset (bump fargo s B) (g k) v)
      (by
        intro l l0 l1 j a c
        have e : opp l j = g (l * C.nx + (j - C.js)) := funext fun w => hp w l l0 l1 j a c
        dsimp only
        rw [e])
      (by intro m; rw [per])
    refine ⟨_, by unfold edgeFlux remapFlx; rw [e]; rfl, ?_⟩
    intro l l0 l1 j a c
    dsimp only
    rw [hr l l0 l1 j a c]
    have := ho v l l0 l1 j a c
    dsimp only at this
    rw [this]
  choose R0 e0 h0 using key
  exact ⟨fun l j v => R0 v l j, e0, h0⟩

theorem givesF_unique {bc : ℕ} {o : Order} {s : Edge} {C : Cut} {fargo : Bool} {B : Box}
    {own opp R R' : ℤ → ℤ → FVar → ℝ} (a : GivesF bc o s C fargo B own opp R)
    (b : GivesF bc o s C fargo B own opp R') : R = R' := by
  funext l j v
  have := (a v).symm.trans (b v)
  exact congrFun (congrFun (Res.ok.inj this) l) j

theorem edgeSum {C : Cut} (h : C.Fit) {bc : ℕ} {o : Order} {s : Edge} {fargo : Bool} {B : Box}
    (hB : B.Fit C) {own opp R : ℤ → ℤ → FVar → ℝ} {f g : ℤ → FVar → ℝ} (ho : HoldsF C own f)
    (hp : HoldsF C opp g) (per : ∀ m, g (m + C.total) = g m)
    (hR : GivesF bc o s C fargo B own opp R) (v : FVar) :
    rowSum C (fun l j => R l j v) = 1 / 2 * (rowSum C (fun l j => own l j v) +
      rowSum C (fun l j => fluxOffset (bump fargo s B) (opp l j) v)) := by
  have tn : ((C.total.toNat : ℕ) : ℤ) = C.total := by
    apply Int.toNat_of_nonneg
    have := h.ngr; have := h.nx; have := h.ng
    exact mul_nonneg (by omega) (by omega)
  obtain ⟨R', g1, g2⟩ := edgeFlux_value h bc o s fargo hB ho hp per
  rw [givesF_unique hR g1, rowSum_holds h (g2 v), rowSum_holds h (ho v)]
  have hq : HoldsIn C (fun l j => fluxOffset (bump fargo s B) (opp l j) v)
      (fun k => fluxOffset (bump fargo s B) (g k) v) := by
    intro l l0 l1 j a c
    have e : opp l j = g (l * C.nx + (j - C.js)) := funext fun w => hp w l l0 l1 j a c
    dsimp only
    rw [e]
  rw [rowSum_holds h hq, ← Finset.mul_sum, Finset.sum_add_distrib]
  set q := fun k => fluxOffset (bump fargo s B) (g k) v
  have pq : ∀ m, q (m + C.total) = q m := by
    intro m; show fluxOffset _ (g (m + C.total)) v = _; rw [per]
  have := sum_shift (g := remap o (s.sign * Int.fract B.zones) q) (N := C.total.toNat)
    (by rw [tn]; exact remap_periodic o pq _) (-(s.sign * ⌊B.zones⌋))
  rw [remap_sum o (by rw [tn]; exact pq)] at this
  rw [← this]
  rfl

/-- **What leaves through one edge enters through the other.**  Whatever fluxes the integrator has
computed at the two edges, those it uses have the same sum along x2: for the mass, the momenta
along x1 and x3 and the electric field along x2.  The flux of the momentum along x2 differs by
what the offset in velocity asks for: `qomL` times the mass carried through. -/
theorem flux_matched {C : Cut} (h : C.Fit) {bc : ℕ} {o : Order} {fargo : Bool} {B : Box}
    (hB : B.Fit C) {Fi Fo Ri Ro : ℤ → ℤ → FVar → ℝ} {fi fo : ℤ → FVar → ℝ} (hi : HoldsF C Fi fi)
    (ho : HoldsF C Fo fo) (pi : ∀ m, fi (m + C.total) = fi m) (po : ∀ m, fo (m + C.total) = fo m)
    (ri : GivesF bc o .ix1 C fargo B Fi Fo Ri) (ro : GivesF bc o .ox1 C fargo B Fo Fi Ro) :
    (∀ v, v ≠ .m2 → rowSum C (fun l j => Ri l j v) = rowSum C (fun l j => Ro l j v)) ∧
    rowSum C (fun l j => Ri l j .m2) = rowSum C (fun l j => Ro l j .m2) +
      bump fargo .ix1 B * rowSum C (fun l j => Ro l j .d) := by
  have si := fun v => edgeSum h hB hi ho po ri v
  have so := fun v => edgeSum h hB ho hi pi ro v
  have same : ∀ (q : ℝ) (F : ℤ → ℤ → FVar → ℝ) (v : FVar), v ≠ .m2 →
      rowSum C (fun l j => fluxOffset q (F l j) v) = rowSum C (fun l j => F l j v) := by
    intro q F v hv
    cases v <;> first | rfl | exact absurd rfl hv
  have two : ∀ (q : ℝ) (F : ℤ → ℤ → FVar → ℝ),
      rowSum C (fun l j => fluxOffset q (F l j) .m2) =
        rowSum C (fun l j => F l j .m2) + q * rowSum C (fun l j => F l j .d) := by
    intro q F
    simp only [rowSum, fluxOffset, Finset.sum_add_distrib, Finset.mul_sum]
  constructor
  · intro v hv
    rw [si v, so v, same _ _ v hv, same _ _ v hv]
    ring
  · have hb : bump fargo .ox1 B = -bump fargo .ix1 B := by
      unfold bump
      cases fargo <;> simp
    rw [si .m2, so .m2, so .d, two, two, same _ _ .d (by decide), hb]
    ring

/-! ## Totals over the Domain -/

/-- The part of the update of a conserved quantity made by the fluxes, one zone:
src/integrators/integrate_3d_ctu.c:3205-3277, src/integrators/integrate_3d_vl.c:1667-1738 (the three
directions one after the other). -/
noncomputable def update (c : Fin 3 → ℝ) (u : ℤ → ℤ → ℤ → ℝ) (F1 F2 F3 : ℤ → ℤ → ℤ → ℝ) (i j k : ℤ) : ℝ :=
  u i j k - c 0 * (F1 (i + 1) j k - F1 i j k) - c 1 * (F2 i (j + 1) k - F2 i j k) -
    c 2 * (F3 i j (k + 1) - F3 i j k)

/-- The update of the face field along x3: src/integrators/integrate_3d_ctu.c:2706-2707 (and
2728-2730 at `ke+1`), src/integrators/integrate_3d_vl.c:1283-1284; Cartesian (`rsf = lsf = 1`). -/
noncomputable def updateB3 (c : Fin 3 → ℝ) (b : ℤ → ℤ → ℤ → ℝ) (e1 e2 : ℤ → ℤ → ℤ → ℝ) (i j k : ℤ) : ℝ :=
  b i j k + c 1 * (e1 i (j + 1) k - e1 i j k) - c 0 * (e2 (i + 1) j k - e2 i j k)

/-- Sum over the zones `0 ≤ i < n1`, `0 ≤ j < n2`. -/
noncomputable def planeSum (n1 n2 : ℕ) (u : ℤ → ℤ → ℝ) : ℝ :=
  ∑ i ∈ Finset.range n1, ∑ j ∈ Finset.range n2, u i j

theorem tele (f : ℤ → ℝ) (n : ℕ) : ∑ i ∈ Finset.range n, (f ((i : ℤ) + 1) - f i) = f n - f 0 := by
  induction n with
  | zero => simp
  | succ k ih => rw [Finset.sum_range_succ, ih]; push_cast; ring

/-- **Totals are kept.**  A Domain of `n1 × n2 × n3` zones, periodic along x2 and with equal fluxes
through the two x3 edges of every column, and equal sums along x2 of the fluxes through the two x1
edges at every x3: the total over the Domain is the same after the update. -/
theorem total_kept (n1 n2 n3 : ℕ) (c : Fin 3 → ℝ) (u F1 F2 F3 : ℤ → ℤ → ℤ → ℝ)
    (edge : ∀ k, ∑ j ∈ Finset.range n2, F1 n1 j k = ∑ j ∈ Finset.range n2, F1 0 j k)
    (per2 : ∀ i k, F2 i n2 k = F2 i 0 k) (per3 : ∀ i j, F3 i j n3 = F3 i j 0) :
    ∑ k ∈ Finset.range n3, planeSum n1 n2 (fun i j => update c u F1 F2 F3 i j k) =
      ∑ k ∈ Finset.range n3, planeSum n1 n2 (fun i j => u i j k) := by
  have e1 : ∀ k : ℤ, planeSum n1 n2 (fun i j => F1 (i + 1) j k - F1 i j k) = 0 := by
    intro k
    unfold planeSum
    rw [Finset.sum_comm]
    have : ∀ j ∈ Finset.range n2, ∑ i ∈ Finset.range n1, (F1 ((i : ℤ) + 1) j k - F1 i j k) =
        F1 n1 j k - F1 0 j k := fun j _ => tele (fun i => F1 i j k) n1
    rw [Finset.sum_congr rfl this, Finset.sum_sub_distrib, edge k, sub_self]
  have e2 : ∀ k : ℤ, planeSum n1 n2 (fun i j => F2 i (j + 1) k - F2 i j k) = 0 := by
    intro k
    unfold planeSum
    apply Finset.sum_eq_zero
    intro i _
    rw [tele (fun j => F2 i j k) n2, per2, sub_self]
  have e3 : ∑ k ∈ Finset.range n3, planeSum n1 n2 (fun i j => F3 i j ((k : ℤ) + 1) - F3 i j k) = 0 := by
    unfold planeSum
    rw [Finset.sum_comm]
    apply Finset.sum_eq_zero
    intro i _
    rw [Finset.sum_comm]
    apply Finset.sum_eq_zero
    intro j _
    rw [tele (fun k => F3 i j k) n3, per3, sub_self]
  have lin : ∀ k : ℤ, planeSum n1 n2 (fun i j => update c u F1 F2 F3 i j k) =
      planeSum n1 n2 (fun i j => u i j k) -
      c 0 * planeSum n1 n2 (fun i j => F1 (i + 1) j k - F1 i j k) -
      c 1 * planeSum n1 n2 (fun i j => F2 i (j + 1) k - F2 i j k) -
      c 2 * planeSum n1 n2 (fun i j => F3 i j (k + 1) - F3 i j k) := by
    intro k
    simp only [planeSum, update, Finset.mul_sum, ← Finset.sum_sub_distrib]
  simp only [lin, e1, e2, mul_zero, sub_zero]
  rw [Finset.sum_sub_distrib, ← Finset.mul_sum, e3, mul_zero, sub_zero]

/-- **The net field along x3 is kept**, in every plane of faces. -/
theorem b3_kept (n1 n2 : ℕ) (c : Fin 3 → ℝ) (b e1 e2 : ℤ → ℤ → ℤ → ℝ) (k : ℤ)
    (edge : ∑ j ∈ Finset.range n2, e2 n1 j k = ∑ j ∈ Finset.range n2, e2 0 j k)
    (per2 : ∀ i, e1 i n2 k = e1 i 0 k) :
    planeSum n1 n2 (fun i j => updateB3 c b e1 e2 i j k) = planeSum n1 n2 (fun i j => b i j k) := by
  have h2 : planeSum n1 n2 (fun i j => e2 (i + 1) j k - e2 i j k) = 0 := by
    unfold planeSum
    rw [Finset.sum_comm]
    have : ∀ j ∈ Finset.range n2, ∑ i ∈ Finset.range n1, (e2 ((i : ℤ) + 1) j k - e2 i j k) =
        e2 n1 j k - e2 0 j k := fun j _ => tele (fun i => e2 i j k) n1
    rw [Finset.sum_congr rfl this, Finset.sum_sub_distrib, edge, sub_self]
  have h1 : planeSum n1 n2 (fun i j => e1 i (j + 1) k - e1 i j k) = 0 := by
    unfold planeSum
    apply Finset.sum_eq_zero
    intro i _
    rw [tele (fun j => e1 i j k) n2, per2, sub_self]
  have lin : planeSum n1 n2 (fun i j => updateB3 c b e1 e2 i j k) =
      planeSum n1 n2 (fun i j => b i j k) +
      c 1 * planeSum n1 n2 (fun i j => e1 i (j + 1) k - e1 i j k) -
      c 0 * planeSum n1 n2 (fun i j => e2 (i + 1) j k - e2 i j k) := by
    simp only [planeSum, updateB3, Finset.mul_sum, ← Finset.sum_sub_distrib, ← Finset.sum_add_distrib]
  rw [lin, h1, h2]
  ring

/-- **A step in the shearing box keeps the totals.**  The fluxes `F1` at the two x1 edges of every
x3 row are the ones the code uses: the mean with the remapped flux of the other edge, from any
fluxes `fi`, `fo` the integrator may have computed there.  Then the total mass, and but for source
terms the total momenta along x1 and x3, are what they were. -/
theorem shear_total {C : Cut} (h : C.Fit) {bc : ℕ} {o : Order} {fargo : Bool} {B : Box}
    (hB : B.Fit C) (n1 n3 : ℕ) (c : Fin 3 → ℝ) (v : FVar) (hv : v ≠ .m2)
    (u F1 F2 F3 : ℤ → ℤ → ℤ → ℝ) (Fi Fo Ri Ro : ℤ → ℤ → ℤ → FVar → ℝ) (fi fo : ℤ → ℤ → FVar → ℝ)
    (hi : ∀ k, HoldsF C (Fi k) (fi k)) (ho : ∀ k, HoldsF C (Fo k) (fo k))
    (pi : ∀ k m, fi k (m + C.total) = fi k m) (po : ∀ k m, fo k (m + C.total) = fo k m)
    (ri : ∀ k, GivesF bc o .ix1 C fargo B (Fi k) (Fo k) (Ri k))
    (ro : ∀ k, GivesF bc o .ox1 C fargo B (Fo k) (Fi k) (Ro k))
    (inner : ∀ k, HoldsIn C (fun l j => Ri k l j v) (fun m => F1 0 m k))
    (outer : ∀ k, HoldsIn C (fun l j => Ro k l j v) (fun m => F1 n1 m k))
    (per2 : ∀ i k, F2 i C.total.toNat k = F2 i 0 k) (per3 : ∀ i j, F3 i j n3 = F3 i j 0) :
    ∑ k ∈ Finset.range n3, planeSum n1 C.total.toNat (fun i j => update c u F1 F2 F3 i j k) =
      ∑ k ∈ Finset.range n3, planeSum n1 C.total.toNat (fun i j => u i j k) := by
  apply total_kept
  · intro k
    rw [← rowSum_holds h (inner k), ← rowSum_holds h (outer k)]
    exact ((flux_matched h hB (hi k) (ho k) (pi k) (po k) (ri k) (ro k)).1 v hv).symm
  · exact per2
  · exact per3

/-- The same for the net field along x3. -/
theorem shear_b3 {C : Cut} (h : C.Fit) {bc : ℕ} {o : Order} {fargo : Bool} {B : Box}
    (hB : B.Fit C) (n1 : ℕ) (c : Fin 3 → ℝ) (b e1 e2 : ℤ → ℤ → ℤ → ℝ) (k : ℤ)
    (Fi Fo Ri Ro : ℤ → ℤ → FVar → ℝ) (fi fo : ℤ → FVar → ℝ)
    (hi : HoldsF C Fi fi) (ho : HoldsF C Fo fo)
    (pi : ∀ m, fi (m + C.total) = fi m) (po : ∀ m, fo (m + C.total) = fo m)
    (ri : GivesF bc o .ix1 C fargo B Fi Fo Ri) (ro : GivesF bc o .ox1 C fargo B Fo Fi Ro)
    (inner : HoldsIn C (fun l j => Ri l j .emf) (fun m => e2 0 m k))
    (outer : HoldsIn C (fun l j => Ro l j .emf) (fun m => e2 n1 m k))
    (per2 : ∀ i, e1 i C.total.toNat k = e1 i 0 k) :
    planeSum n1 C.total.toNat (fun i j => updateB3 c b e1 e2 i j k) =
      planeSum n1 C.total.toNat (fun i j => b i j k) := by
  apply b3_kept
  · rw [← rowSum_holds h inner, ← rowSum_holds h outer]
    exact ((flux_matched h hB hi ho pi po ri ro).1 .emf (by decide)).symm
  · exact per2

end Athena.Shear
