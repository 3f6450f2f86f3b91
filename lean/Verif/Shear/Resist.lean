import Verif.Shear.Refute

/-!
# The shearing sheet: resistivity and the gravitational potential

`RemapEy_ix1()`, `RemapEy_ox1()`, `RemapJy_ix1()`, `RemapJy_ox1()`, `ShearingSheet_grav_ix1()` and `ShearingSheet_grav_ox1()` of src/bvals_shear.c, and
how `resistivity()` uses the first four in three dimensions.  The electric field and the current density are whatever the diffusion routines have
computed; the theorems hold for all of them.
-/

namespace Athena.Shear

/-- `RemapEy_ix1` (src/bvals_shear.c:3060-3374) or `RemapEy_ox1` (3390-3704) for one row, with `opp` the row of the opposite edge. -/
noncomputable def remapEy (o : Order) (s : Edge) (C : Cut) (B : Box) (opp : ℤ → ℤ → ℝ) : Res (ℤ → ℤ → ℝ) :=
  flxRow o s C (epsOf s B.yshear B.ly B.dx2) (joffset B.yshear B.ly B.dx2) opp

/-- `emf.x2` at an edge: the mean with the remapped one of the other edge, src/microphysics/resistivity.c:294-319. -/
noncomputable def edgeEy (o : Order) (s : Edge) (C : Cut) (B : Box) (own opp : ℤ → ℤ → ℝ) : Res (ℤ → ℤ → ℝ) :=
  (remapEy o s C B opp).bind fun r => .ok (fun l j => 1 / 2 * (own l j + r l j))

/-- `RemapJy_ix1` (src/bvals_shear.c:3716-4101) or `RemapJy_ox1` (4113-4501) for one row: as `remapEy`, and the result gets its ghost zones
along x2, too (Step 6). -/
noncomputable def remapJy (o : Order) (s : Edge) (C : Cut) (B : Box) (opp : ℤ → ℤ → ℝ) : Res (ℤ → ℤ → ℝ) :=
  sheetRow o s C (epsOf s B.yshear B.ly B.dx2) (joffset B.yshear B.ly B.dx2) (fun l => ghostY C opp l)

/-- `J.x2` of the row `i` (counted from `is`) of a Domain of `n1` zones along x1, for `nlayer` layers: src/microphysics/resistivity.c:246-276.
The layer `n = i-is+nlayer-1` at the inner edge is filled from `ie+2-nlayer+n = i+n1` (src/bvals_shear.c:3749), the layer `n = i-ie-1` at the
outer edge from `is+n = i-n1` (4146).  The copies `J2` are taken before. -/
noncomputable def edgeJy (o : Order) (C : Cut) (B : Box) (nlayer n1 : ℤ) (J : ℤ → ℤ → ℤ → ℝ) (i : ℤ) : Res (ℤ → ℤ → ℝ) :=
  if -nlayer + 1 ≤ i ∧ i ≤ 0 then
    (remapJy o .ix1 C B (J (i + n1))).bind fun r => .ok (fun l j => 1 / 2 * (J i l j + r l j))
  else if n1 ≤ i ∧ i ≤ n1 - 1 + nlayer then
    (remapJy o .ox1 C B (J (i - n1))).bind fun r => .ok (fun l j => 1 / 2 * (J i l j + r l j))
  else .ok (J i)

/-- `ShearingSheet_grav_ix1` (src/bvals_shear.c:1335-1661) or `ShearingSheet_grav_ox1` (1678-2008) for one row of `Phi` that the periodic
boundary condition has put there; called from src/gravity/bvals_grav.c:300-309. -/
noncomputable def sheetPhi (o : Order) (s : Edge) (C : Cut) (B : Box) (rows : ℤ → ℤ → ℝ) : Res (ℤ → ℤ → ℝ) :=
  sheetRow o s C (epsOf s B.yshear B.ly B.dx2) (joffset B.yshear B.ly B.dx2) rows

/-- The CT update of the field along x3 in `resistivity()`, src/microphysics/resistivity.c:537-539 and 560-562; Cartesian. -/
noncomputable def resistB3 (c : Fin 3 → ℝ) (b e1 e2 : ℤ → ℤ → ℤ → ℝ) (i j k : ℤ) : ℝ :=
  b i j k + (c 1 * (e1 i (j + 1) k - e1 i j k) - c 0 * (e2 (i + 1) j k - e2 i j k))

/-- The same along x1, src/microphysics/resistivity.c:528-529 and 544-546. -/
noncomputable def resistB1 (c : Fin 3 → ℝ) (b e2 e3 : ℤ → ℤ → ℤ → ℝ) (i j k : ℤ) : ℝ :=
  b i j k + (c 2 * (e2 i j (k + 1) - e2 i j k) - c 1 * (e3 i (j + 1) k - e3 i j k))

/-! ## The electric field -/

/-- A row of the Domain as the other edge sees it: moved by the distance sheared. -/
noncomputable def sheared (o : Order) (s : Edge) (B : Box) (g : ℤ → ℝ) (m : ℤ) : ℝ :=
  remap o (s.sign * Int.fract B.zones) g (m - s.sign * ⌊B.zones⌋)

theorem sheared_sum {C : Cut} (h : C.Fit) (o : Order) (s : Edge) (B : Box) {g : ℤ → ℝ} (per : ∀ m, g (m + C.total) = g m) :
    ∑ m ∈ Finset.range C.total.toNat, sheared o s B g m = ∑ m ∈ Finset.range C.total.toNat, g m := by
  have tn : ((C.total.toNat : ℕ) : ℤ) = C.total := by
    apply Int.toNat_of_nonneg
    have := h.ngr; have := h.nx; have := h.ng
    exact mul_nonneg (by omega) (by omega)
  have := sum_shift (g := remap o (s.sign * Int.fract B.zones) g) (N := C.total.toNat)
    (by rw [tn]; exact remap_periodic o per _) (-(s.sign * ⌊B.zones⌋))
  rw [remap_sum o (by rw [tn]; exact per)] at this
  exact this

/-- What `edgeEy` is. -/
theorem edgeEy_value {C : Cut} (h : C.Fit) (o : Order) (s : Edge) {B : Box} (hB : B.Fit C) {own opp : ℤ → ℤ → ℝ} {f g : ℤ → ℝ}
    (ho : HoldsIn C own f) (hp : HoldsIn C opp g) (per : ∀ m, g (m + C.total) = g m) :
    ∃ R, edgeEy o s C B own opp = .ok R ∧ HoldsIn C R (fun m => 1 / 2 * (f m + sheared o s B g m)) := by
  obtain ⟨r, e, hr⟩ := flxRow_global h o s hB hp per
  refine ⟨_, by unfold edgeEy remapEy; rw [e]; rfl, ?_⟩
  intro l l0 l1 j a c
  dsimp only
  rw [hr l l0 l1 j a c, ho l l0 l1 j a c]
  rfl

/-- **C87.** The electric fields that `resistivity()` uses at the two edges have the same sum along x2, whatever it has computed there. -/
theorem ey_matched {C : Cut} (h : C.Fit) {o : Order} {B : Box} (hB : B.Fit C) {Ei Eo Ri Ro : ℤ → ℤ → ℝ} {fi fo : ℤ → ℝ}
    (hi : HoldsIn C Ei fi) (ho : HoldsIn C Eo fo) (pi : ∀ m, fi (m + C.total) = fi m) (po : ∀ m, fo (m + C.total) = fo m)
    (ri : edgeEy o .ix1 C B Ei Eo = .ok Ri) (ro : edgeEy o .ox1 C B Eo Ei = .ok Ro) : rowSum C Ri = rowSum C Ro := by
  obtain ⟨R, e, hR⟩ := edgeEy_value h o .ix1 hB hi ho po
  obtain ⟨R', e', hR'⟩ := edgeEy_value h o .ox1 hB ho hi pi
  rw [ri] at e; rw [ro] at e'
  rw [Res.ok.inj e, Res.ok.inj e', rowSum_holds h hR, rowSum_holds h hR', ← Finset.mul_sum, ← Finset.mul_sum, Finset.sum_add_distrib,
    Finset.sum_add_distrib, sheared_sum h _ _ _ po, sheared_sum h _ _ _ pi]
  ring

/-- **C87. Resistivity in the shearing box keeps the net vertical field**, in every plane of faces, for any electric fields `Ei`, `Eo` computed at
the edges (by Ohm, Hall or ambipolar diffusion) and any in between. -/
theorem resist_b3 {C : Cut} (h : C.Fit) {o : Order} {B : Box} (hB : B.Fit C) (n1 : ℕ) (c : Fin 3 → ℝ) (b e1 e2 : ℤ → ℤ → ℤ → ℝ) (k : ℤ)
    (Ei Eo Ri Ro : ℤ → ℤ → ℝ) (fi fo : ℤ → ℝ) (hi : HoldsIn C Ei fi) (ho : HoldsIn C Eo fo)
    (pi : ∀ m, fi (m + C.total) = fi m) (po : ∀ m, fo (m + C.total) = fo m)
    (ri : edgeEy o .ix1 C B Ei Eo = .ok Ri) (ro : edgeEy o .ox1 C B Eo Ei = .ok Ro)
    (inner : HoldsIn C Ri (fun m => e2 0 m k)) (outer : HoldsIn C Ro (fun m => e2 n1 m k))
    (per2 : ∀ i, e1 i C.total.toNat k = e1 i 0 k) :
    planeSum n1 C.total.toNat (fun i j => resistB3 c b e1 e2 i j k) = planeSum n1 C.total.toNat (fun i j => b i j k) := by
  have := b3_kept n1 C.total.toNat c b e1 e2 k
    (by rw [← rowSum_holds h inner, ← rowSum_holds h outer]; exact (ey_matched h hB hi ho pi po ri ro).symm) per2
  rw [← this]
  congr 1; funext i j
  unfold resistB3 updateB3
  ring

/-- **C87. … and the net radial field** through every surface of constant x1, the edges included: there, too, the electric field at the lower and
at the upper side of the box are the same after the averaging if they were before. -/
theorem resist_b1 (n2 n3 : ℕ) (c : Fin 3 → ℝ) (b e2 e3 : ℤ → ℤ → ℤ → ℝ) (i : ℤ)
    (per2 : ∀ k, e3 i n2 k = e3 i 0 k) (per3 : ∀ j, e2 i j n3 = e2 i j 0) :
    planeSum n2 n3 (fun j k => resistB1 c b e2 e3 i j k) = planeSum n2 n3 (fun j k => b i j k) := by
  have h3 : planeSum n2 n3 (fun j k => e2 i j (k + 1) - e2 i j k) = 0 := by
    unfold planeSum
    apply Finset.sum_eq_zero
    intro j _
    rw [tele (fun k => e2 i j k) n3, per3, sub_self]
  have h2 : planeSum n2 n3 (fun j k => e3 i (j + 1) k - e3 i j k) = 0 := by
    unfold planeSum
    rw [Finset.sum_comm]
    apply Finset.sum_eq_zero
    intro k _
    rw [tele (fun j => e3 i j k) n2, per2, sub_self]
  have lin : planeSum n2 n3 (fun j k => resistB1 c b e2 e3 i j k) = planeSum n2 n3 (fun j k => b i j k) +
      (c 2 * planeSum n2 n3 (fun j k => e2 i j (k + 1) - e2 i j k) - c 1 * planeSum n2 n3 (fun j k => e3 i (j + 1) k - e3 i j k)) := by
    simp only [planeSum, resistB1, Finset.mul_sum, ← Finset.sum_sub_distrib, ← Finset.sum_add_distrib]
  rw [lin, h3, h2]
  ring

/-- The rows of the edge at the lower and the upper side of the box agree after the averaging if they did before. -/
theorem ey_top {C : Cut} (h : C.Fit) {o : Order} {s : Edge} {B : Box} (hB : B.Fit C) {own opp own' opp' R R' : ℤ → ℤ → ℝ} {f g : ℤ → ℝ}
    (ho : HoldsIn C own f) (hp : HoldsIn C opp g) (ho' : HoldsIn C own' f) (hp' : HoldsIn C opp' g) (per : ∀ m, g (m + C.total) = g m)
    (hR : edgeEy o s C B own opp = .ok R) (hR' : edgeEy o s C B own' opp' = .ok R') {l j : ℤ} (l0 : 0 ≤ l) (l1 : l < C.ngr) (a : C.js ≤ j)
    (c : j ≤ C.je) : R l j = R' l j := by
  obtain ⟨S, e, hS⟩ := edgeEy_value h o s hB ho hp per
  obtain ⟨S', e', hS'⟩ := edgeEy_value h o s hB ho' hp' per
  rw [hR] at e; rw [hR'] at e'
  rw [Res.ok.inj e, Res.ok.inj e', hS l l0 l1 j a c, hS' l l0 l1 j a c]

/-! ## The current density -/

/-- The row of the Domain that row `i` is the image of, and the edge. -/
def image (nlayer n1 i : ℤ) : Option (Edge × ℤ) :=
  if -nlayer < i ∧ i ≤ 0 then some (.ix1, i + n1) else if n1 ≤ i ∧ i < n1 + nlayer then some (.ox1, i - n1) else none

/-- **C86.** The current density at and outside an edge is, in every Grid and in the ghost zones along x2, the mean of the one computed there
and the one of the image at the other edge, moved by the distance sheared; elsewhere it is as computed.  What a zone gets does not depend on how
the Domain is cut into Grids. -/
theorem jy_value {C : Cut} (h : C.Fit) (o : Order) {B : Box} (hB : B.Fit C) (nlayer n1 : ℤ) {J : ℤ → ℤ → ℤ → ℝ} {g : ℤ → ℤ → ℝ}
    (hJ : ∀ i, Holds C (J i) (g i)) (per : ∀ i m, g i (m + C.total) = g i m) (i : ℤ) :
    ∃ R, edgeJy o C B nlayer n1 J i = .ok R ∧ Holds C R (fun m => match image nlayer n1 i with
      | some (s, i') => 1 / 2 * (g i m + sheared o s B (g i') m)
      | none => g i m) := by
  have hg := h.ng
  have hin : ∀ i, HoldsIn C (J i) (g i) := fun i l l0 l1 j a c => hJ i l l0 l1 j (by omega) (by omega)
  have key : ∀ (s : Edge) (i' : ℤ), ∃ r, remapJy o s C B (J i') = .ok r ∧ Holds C r (sheared o s B (g i')) := by
    intro s i'
    obtain ⟨r, e, hr⟩ := sheet_row h o s hB.dx hB.fwd (ghostY_global h (hin i') (per i')) (per i')
    exact ⟨r, by unfold remapJy; rw [hB.ly]; exact e, hr⟩
  unfold edgeJy image
  by_cases c1 : -nlayer + 1 ≤ i ∧ i ≤ 0
  · rw [if_pos c1]
    simp only [if_pos (show -nlayer < i ∧ i ≤ 0 by omega)]
    obtain ⟨r, e, hr⟩ := key .ix1 (i + n1)
    refine ⟨_, by rw [e]; rfl, ?_⟩
    intro l l0 l1 j a c
    dsimp only
    rw [hJ i l l0 l1 j a c, hr l l0 l1 j a c]
  · rw [if_neg c1]
    simp only [if_neg (show ¬(-nlayer < i ∧ i ≤ 0) by omega)]
    by_cases c2 : n1 ≤ i ∧ i ≤ n1 - 1 + nlayer
    · rw [if_pos c2]
      simp only [if_pos (show n1 ≤ i ∧ i < n1 + nlayer by omega)]
      obtain ⟨r, e, hr⟩ := key .ox1 (i - n1)
      refine ⟨_, by rw [e]; rfl, ?_⟩
      intro l l0 l1 j a c
      dsimp only
      rw [hJ i l l0 l1 j a c, hr l l0 l1 j a c]
    · rw [if_neg c2]
      simp only [if_neg (show ¬(n1 ≤ i ∧ i < n1 + nlayer) by omega)]
      exact ⟨_, rfl, hJ i⟩

/-- **C87.** A row and its image, `n1` zones further, carry the same net current along x2: at the edges themselves, and in the layers beyond, with
the field as computed in the images. -/
theorem jy_matched {C : Cut} (h : C.Fit) {o : Order} {B : Box} (hB : B.Fit C) {nlayer n1 : ℤ} (hn : 1 ≤ nlayer) (hn1 : 1 ≤ n1)
    {J : ℤ → ℤ → ℤ → ℝ} {g : ℤ → ℤ → ℝ} (hJ : ∀ i, Holds C (J i) (g i)) (per : ∀ i m, g i (m + C.total) = g i m) {R R' : ℤ → ℤ → ℝ}
    (hR : edgeJy o C B nlayer n1 J 0 = .ok R) (hR' : edgeJy o C B nlayer n1 J n1 = .ok R') : rowSum C R = rowSum C R' := by
  have hg := h.ng
  have inn : ∀ {r : ℤ → ℤ → ℝ} {f : ℤ → ℝ}, Holds C r f → HoldsIn C r f := fun hr l l0 l1 j a c => hr l l0 l1 j (by omega) (by omega)
  obtain ⟨S, e, hS⟩ := jy_value h o hB nlayer n1 hJ per 0
  obtain ⟨S', e', hS'⟩ := jy_value h o hB nlayer n1 hJ per n1
  rw [hR] at e; rw [hR'] at e'
  have i0 : image nlayer n1 0 = some (.ix1, n1) := by
    unfold image; rw [if_pos (by omega)]; simp
  have i1 : image nlayer n1 n1 = some (.ox1, 0) := by
    unfold image; rw [if_neg (by omega), if_pos (by omega)]; simp
  simp only [i0] at hS
  simp only [i1] at hS'
  rw [Res.ok.inj e, Res.ok.inj e', rowSum_holds h (inn hS), rowSum_holds h (inn hS'), ← Finset.mul_sum, ← Finset.mul_sum,
    Finset.sum_add_distrib, Finset.sum_add_distrib, sheared_sum h _ _ _ (per _), sheared_sum h _ _ _ (per _)]
  ring

/-- The messages of `RemapJy` fit into the buffers with a magnetic field: `Nx[1]` zones in each of at most `nghost` layers of `Nx[2]+2*nlayer-1`
rows, src/bvals_shear.c:3757, 5503. -/
theorem jy_fits (baro : Bool) (ns ng nlayer nx2 nx3 : ℕ) (h3 : 1 ≤ nx3) (hl : nlayer ≤ 4) (hg : nlayer ≤ ng) :
    nlayer * nx2 * (nx3 + 2 * nlayer - 1) ≤ bufLen true baro ns ng nx2 nx3 := by
  have a : nx3 + 2 * nlayer - 1 ≤ (nx3 + 1) * remapped true baro ns := by
    have : 8 ≤ remapped true baro ns := by cases baro <;> simp only [remapped] <;> omega
    calc nx3 + 2 * nlayer - 1 ≤ (nx3 + 1) * 8 := by omega
      _ ≤ _ := Nat.mul_le_mul_left _ this
  calc nlayer * nx2 * (nx3 + 2 * nlayer - 1) ≤ ng * nx2 * ((nx3 + 1) * remapped true baro ns) :=
        Nat.mul_le_mul (Nat.mul_le_mul_right _ hg) a
    _ = bufLen true baro ns ng nx2 nx3 := by unfold bufLen; ring

/-! ## The potential -/

/-- **C86.** The gravitational potential in the ghost zones beyond an edge is that of the periodic images, moved by the distance sheared, in every
Grid and in the ghost zones along x2, whatever the decomposition. -/
theorem phi_value {C : Cut} (h : C.Fit) (o : Order) (s : Edge) {B : Box} (hB : B.Fit C) {rows : ℤ → ℤ → ℝ} {g : ℤ → ℝ} (hr : Holds C rows g)
    (per : ∀ m, g (m + C.total) = g m) : ∃ R, sheetPhi o s C B rows = .ok R ∧ Holds C R (sheared o s B g) := by
  obtain ⟨R, e, hR⟩ := sheet_row h o s hB.dx hB.fwd hr per
  exact ⟨R, by unfold sheetPhi; rw [hB.ly]; exact e, hR⟩

/-- At second order the potential stays between the bounds of the images. -/
theorem phi_bounds {C : Cut} (h : C.Fit) {s : Edge} {B : Box} (hB : B.Fit C) {rows R : ℤ → ℤ → ℝ} {g : ℤ → ℝ} (hr : Holds C rows g)
    (per : ∀ m, g (m + C.total) = g m) (hR : sheetPhi .second s C B rows = .ok R) {lo hi : ℝ} (bound : ∀ m, lo ≤ g m ∧ g m ≤ hi)
    {l j : ℤ} (l0 : 0 ≤ l) (l1 : l < C.ngr) (a : C.js - C.ng ≤ j) (c : j ≤ C.je + C.ng) : lo ≤ R l j ∧ R l j ≤ hi := by
  obtain ⟨S, e, hS⟩ := phi_value h .second s hB hr per
  rw [hR] at e
  rw [Res.ok.inj e, hS l l0 l1 j a c]
  have f0 := Int.fract_nonneg B.zones
  have f1 := (Int.fract_lt_one B.zones).le
  unfold sheared
  cases s
  · simp only [Edge.sign, Int.cast_one, one_mul]
    exact remap2_bounds_pos _ f0 f1 _ (bound _).1 (bound _).2 (bound _).1 (bound _).2
  · simp only [Edge.sign, Int.cast_neg, Int.cast_one, neg_mul, one_mul]
    exact remap2_bounds_neg _ (by linarith) (by linarith) _ (bound _).1 (bound _).2 (bound _).1 (bound _).2

/-! ## Instances -/

/-- Two Grids of four zones along x2. -/
def two4 : Cut := ⟨2, 4, 4⟩
theorem two4_fit : two4.Fit := ⟨by norm_num [two4], by norm_num [two4], by norm_num [two4]⟩

/-- A box of eight zones that has sheared by 21/2 zones. -/
noncomputable def box8 : Box := ⟨1, 1, 8, 1, 21 / 2⟩
theorem box8_fit : box8.Fit two4 :=
  ⟨by norm_num [box8], by norm_num [box8, two4, Cut.total], by norm_num [box8, Box.yshear, Box.qomL]⟩

/-- Rows of the Domain of which no two neighbours agree, with the period of the Domain. -/
def saw (a : ℝ) (m : ℤ) : ℝ := if m % 2 = 0 then a else 0
theorem saw_per (a : ℝ) (m : ℤ) : saw a (m + two4.total) = saw a m := by
  have : two4.total = 8 := by norm_num [two4, Cut.total]
  unfold saw
  rw [this, show (m + 8) % 2 = m % 2 by omega]

example (o : Order) : ∃ Ri Ro, edgeEy o .ix1 two4 box8 (spread two4 (saw 3)) (spread two4 (saw 5)) = .ok Ri ∧
    edgeEy o .ox1 two4 box8 (spread two4 (saw 5)) (spread two4 (saw 3)) = .ok Ro ∧ rowSum two4 Ri = rowSum two4 Ro := by
  have hi : HoldsIn two4 (spread two4 (saw 3)) (saw 3) := fun _ _ _ _ _ _ => rfl
  have ho : HoldsIn two4 (spread two4 (saw 5)) (saw 5) := fun _ _ _ _ _ _ => rfl
  obtain ⟨Ri, ri, -⟩ := edgeEy_value two4_fit o .ix1 box8_fit hi ho (saw_per 5)
  obtain ⟨Ro, ro, -⟩ := edgeEy_value two4_fit o .ox1 box8_fit ho hi (saw_per 3)
  exact ⟨Ri, Ro, ri, ro, ey_matched two4_fit box8_fit hi ho (saw_per 3) (saw_per 5) ri ro⟩

example (o : Order) (c : Fin 3 → ℝ) (b : ℤ → ℤ → ℤ → ℝ) (k : ℤ) : ∃ Ri Ro,
    edgeEy o .ix1 two4 box8 (spread two4 (saw 3)) (spread two4 (saw 5)) = .ok Ri ∧
    edgeEy o .ox1 two4 box8 (spread two4 (saw 5)) (spread two4 (saw 3)) = .ok Ro ∧
    ∃ e2 : ℤ → ℤ → ℤ → ℝ, HoldsIn two4 Ri (fun m => e2 0 m k) ∧ HoldsIn two4 Ro (fun m => e2 6 m k) ∧
    planeSum 6 8 (fun i j => resistB3 c b (fun i _ _ => i) e2 i j k) = planeSum 6 8 (fun i j => b i j k) := by
  have hi : HoldsIn two4 (spread two4 (saw 3)) (saw 3) := fun _ _ _ _ _ _ => rfl
  have ho : HoldsIn two4 (spread two4 (saw 5)) (saw 5) := fun _ _ _ _ _ _ => rfl
  obtain ⟨Ri, ri, hri⟩ := edgeEy_value two4_fit o .ix1 box8_fit hi ho (saw_per 5)
  obtain ⟨Ro, ro, hro⟩ := edgeEy_value two4_fit o .ox1 box8_fit ho hi (saw_per 3)
  let e2 : ℤ → ℤ → ℤ → ℝ := fun i m _ => if i = 0 then 1 / 2 * (saw 3 m + sheared o .ix1 box8 (saw 5) m)
    else if i = 6 then 1 / 2 * (saw 5 m + sheared o .ox1 box8 (saw 3) m) else 7
  have h0 : HoldsIn two4 Ri (fun m => e2 0 m k) := by
    intro l l0 l1 j a c; rw [hri l l0 l1 j a c]; simp [e2]
  have h6 : HoldsIn two4 Ro (fun m => e2 6 m k) := by
    intro l l0 l1 j a c; rw [hro l l0 l1 j a c]; simp [e2]
  refine ⟨Ri, Ro, ri, ro, e2, h0, h6, ?_⟩
  exact resist_b3 two4_fit box8_fit 6 c b (fun i _ _ => i) e2 k _ _ Ri Ro _ _ hi ho (saw_per 3) (saw_per 5) ri ro h0 h6 (fun _ => rfl)

example (c : Fin 3 → ℝ) (b : ℤ → ℤ → ℤ → ℝ) (i : ℤ) :
    planeSum 8 4 (fun j k => resistB1 c b (fun _ j k => j * (k * (4 - k))) (fun _ j k => k + j * (8 - j)) i j k) =
      planeSum 8 4 (fun j k => b i j k) :=
  resist_b1 8 4 c b _ _ i (fun k => by push_cast; ring) (fun j => by push_cast; ring)

example (o : Order) : ∃ R R', edgeEy o .ix1 two4 box8 (spread two4 (saw 3)) (spread two4 (saw 5)) = .ok R ∧
    edgeEy o .ix1 two4 box8 (fun l j => spread two4 (saw 3) l j) (spread two4 (saw 5)) = .ok R' ∧ R 1 5 = R' 1 5 := by
  have hi : HoldsIn two4 (spread two4 (saw 3)) (saw 3) := fun _ _ _ _ _ _ => rfl
  have ho : HoldsIn two4 (spread two4 (saw 5)) (saw 5) := fun _ _ _ _ _ _ => rfl
  obtain ⟨Ri, ri, -⟩ := edgeEy_value two4_fit o .ix1 box8_fit hi ho (saw_per 5)
  exact ⟨Ri, Ri, ri, ri, ey_top two4_fit box8_fit hi ho hi ho (saw_per 5) ri ri (by norm_num) (by norm_num [two4])
    (by norm_num [two4, Cut.js]) (by norm_num [two4, Cut.je])⟩

example (o : Order) : ∃ R R', edgeJy o two4 box8 2 6 (fun i => spread two4 (saw i)) 0 = .ok R ∧
    edgeJy o two4 box8 2 6 (fun i => spread two4 (saw i)) 6 = .ok R' ∧ rowSum two4 R = rowSum two4 R' := by
  have hJ : ∀ i : ℤ, Holds two4 (spread two4 (saw i)) (saw i) := fun _ _ _ _ _ _ _ => rfl
  obtain ⟨R, e, -⟩ := jy_value two4_fit o box8_fit 2 6 hJ (fun i => saw_per i) 0
  obtain ⟨R', e', -⟩ := jy_value two4_fit o box8_fit 2 6 hJ (fun i => saw_per i) 6
  exact ⟨R, R', e, e', jy_matched two4_fit box8_fit (by norm_num) (by norm_num) hJ (fun i => saw_per i) e e'⟩

example : 4 * 8 * (16 + 2 * 4 - 1) ≤ bufLen true false 0 4 8 16 := jy_fits false 0 4 4 8 16 (by norm_num) (by norm_num) (by norm_num)

example : ∃ R, sheetPhi .second .ix1 two4 box8 (spread two4 (saw 3)) = .ok R ∧ 0 ≤ R 1 9 ∧ R 1 9 ≤ 3 := by
  have hr : Holds two4 (spread two4 (saw 3)) (saw 3) := fun _ _ _ _ _ _ => rfl
  obtain ⟨R, e, -⟩ := phi_value two4_fit .second .ix1 box8_fit hr (saw_per 3)
  exact ⟨R, e, phi_bounds two4_fit box8_fit hr (saw_per 3) e (fun m => by unfold saw; split_ifs <;> norm_num) (by norm_num) (by norm_num [two4])
    (by norm_num [two4, Cut.js]) (by norm_num [two4, Cut.je])⟩

end Athena.Shear
