import Verif.Base
import Verif.Shear.Remap
import Mathlib.Algebra.Order.Floor.Ring
import Mathlib.Data.Real.Archimedean

/-!
# The shearing-sheet boundary: the rows of a Domain cut into Grids along x2

`ShearingSheet_ix1()` and `ShearingSheet_ox1()` of src/bvals_shear.c take the values that the
periodic condition in x1 has put in the ghost zones, move them along x2 by the distance the
neighbouring box has sheared, and hand them to the Grids which own the zones they arrive in.
This file models that for one row (one x1 layer, one x3 index) of one variable; the rows do not
interact.  `Verif.Shear.State` puts the variables together and `Verif.Shear.Flux` treats the
fluxes.

The Grids of a row all have the same number of zones along x2: the code says it assumes this
(src/bvals_shear.c:288, 882).
-/

namespace Athena.Shear

/-- The two x1 edges of the Domain. -/
inductive Edge where
  | ix1
  | ox1

/-- How a row is cut: `NGrid[1]`, `Nx[1]` of every Grid, and `nghost`.  The first zone of a Grid
has the index `js = nghost` (src/init_grid.c). -/
structure Cut where
  ngr : ℤ
  nx : ℤ
  ng : ℤ

def Cut.js (C : Cut) : ℤ := C.ng
def Cut.je (C : Cut) : ℤ := C.ng + C.nx - 1

/-- Zones of the whole row. -/
def Cut.total (C : Cut) : ℤ := C.ngr * C.nx

/-! ## How far the box has sheared -/

/-- Conversion of a `double` to an `int`: towards zero. -/
noncomputable def cTrunc (x : ℝ) : ℤ := if 0 ≤ x then ⌊x⌋ else ⌈x⌉

/-- `fmod` of the C library. -/
noncomputable def cFmod (x y : ℝ) : ℝ := x - y * cTrunc (x / y)

/-- `joffset`: src/bvals_shear.c:179, 185 and 773, 779. -/
noncomputable def joffset (yshear ly dx2 : ℝ) : ℤ := cTrunc (cFmod yshear ly / dx2)

/-- `epsi` and `epso`: src/bvals_shear.c:186, 780. -/
noncomputable def epsOf (s : Edge) (yshear ly dx2 : ℝ) : ℝ :=
  match s with
  | .ix1 => cFmod (cFmod yshear ly) dx2 / dx2
  | .ox1 => -cFmod (cFmod yshear ly) dx2 / dx2

/-! ## One Grid: Step 4 -/

/-- `jremap`: src/bvals_shear.c:260-261, 854-855. -/
def jremap (s : Edge) (C : Cut) (joff j : ℤ) : ℤ :=
  match s with
  | .ix1 => let r := j - joff; if r < C.js then r + C.nx else r
  | .ox1 => let r := j + joff; if r > C.je then r - C.nx else r

/-- Every entry Step 4 reads has been written by Step 3: src/bvals_shear.c:234, 259-272. -/
def step4ok (s : Edge) (C : Cut) (joff : ℤ) : Prop :=
  ∀ j, C.js ≤ j → j ≤ C.je → C.js ≤ jremap s C joff j ∧ jremap s C joff j ≤ C.je

/-! ## Several Grids: Step 5 -/

/-- `Ngrids`: src/bvals_shear.c:289, 883. -/
def nGrids (C : Cut) (joff : ℤ) : ℤ := Int.tdiv joff C.nx

/-- `joverlap`: src/bvals_shear.c:290, 884. -/
def overlap (C : Cut) (joff : ℤ) : ℤ := joff - nGrids C joff * C.nx

/-- `if (jproc > NGrid-1) jproc -= NGrid`: src/bvals_shear.c:301, 388, 899, 988. -/
def wrapHi (C : Cut) (p : ℤ) : ℤ := if p > C.ngr - 1 then p - C.ngr else p

/-- `if (jproc < 0) jproc += NGrid`: src/bvals_shear.c:305, 392, 895, 984. -/
def wrapLo (C : Cut) (p : ℤ) : ℤ := if p < 0 then p + C.ngr else p

/-- `sendto_id` of Step 5a: src/bvals_shear.c:300-302, 894-896. -/
def toA (s : Edge) (C : Cut) (joff p : ℤ) : ℤ :=
  match s with
  | .ix1 => wrapHi C (p + (nGrids C joff + 1))
  | .ox1 => wrapLo C (p - (nGrids C joff + 1))

/-- `getfrom_id` of Step 5a: src/bvals_shear.c:304-306, 898-900. -/
def fromA (s : Edge) (C : Cut) (joff p : ℤ) : ℤ :=
  match s with
  | .ix1 => wrapLo C (p - (nGrids C joff + 1))
  | .ox1 => wrapHi C (p + (nGrids C joff + 1))

/-- `sendto_id` of Step 5e: src/bvals_shear.c:387-389, 983-985. -/
def toE (s : Edge) (C : Cut) (joff p : ℤ) : ℤ :=
  match s with
  | .ix1 => wrapHi C (p + nGrids C joff)
  | .ox1 => wrapLo C (p - nGrids C joff)

/-- `getfrom_id` of Step 5e: src/bvals_shear.c:391-393, 987-989. -/
def fromE (s : Edge) (C : Cut) (joff p : ℤ) : ℤ :=
  match s with
  | .ix1 => wrapLo C (p - nGrids C joff)
  | .ox1 => wrapHi C (p + nGrids C joff)

/-- Grid `l` can finish Step 5: the counts are not negative, the processor indices exist, and
the Grid it listens to sends to it (src/bvals_shear.c:298-331, 383-415).  Both messages carry the
same tag; they leave and arrive in the same order on every Grid. -/
def step5ok (s : Edge) (C : Cut) (joff l : ℤ) : Prop :=
  0 ≤ overlap C joff ∧
  (overlap C joff ≠ 0 → (0 ≤ fromA s C joff l ∧ fromA s C joff l < C.ngr) ∧
    toA s C joff (fromA s C joff l) = l) ∧
  (nGrids C joff ≠ 0 → (0 ≤ fromE s C joff l ∧ fromE s C joff l < C.ngr) ∧
    toE s C joff (fromE s C joff l) = l)

/-- Zone `j` of Grid `l` after Step 5: src/bvals_shear.c:318-352 (overlapping part), 361-377 (the
rest, same Grid), 402-433 (the rest, other Grid); 912-948, 957-973, 998-1029.  The zones are
packed and unpacked in the same order, so the n-th zone packed is the n-th unpacked. -/
def step5 (s : Edge) (C : Cut) (joff : ℤ) (buf : ℤ → ℤ → ℝ) (l j : ℤ) : ℝ :=
  match s with
  | .ix1 =>
    if j ≤ C.js + (overlap C joff - 1) then
      buf (fromA .ix1 C joff l) (C.je - (overlap C joff - 1) + (j - C.js))
    else if nGrids C joff = 0 then buf l (j - overlap C joff)
    else buf (fromE .ix1 C joff l) (C.js + (j - (C.js + overlap C joff)))
  | .ox1 =>
    if C.je - (overlap C joff - 1) ≤ j then
      buf (fromA .ox1 C joff l) (C.js + (j - (C.je - (overlap C joff - 1))))
    else if nGrids C joff = 0 then buf l (j + overlap C joff)
    else buf (fromE .ox1 C joff l) (C.js + overlap C joff + (j - C.js))

open Classical in
/-- The shift by whole zones: Step 4 or Step 5.  Reading an entry Step 3 has not written, a
negative count, an index outside `GData` or a message nobody sends is `ub`. -/
noncomputable def shift (s : Edge) (C : Cut) (joff : ℤ) (buf : ℤ → ℤ → ℝ) : Res (ℤ → ℤ → ℝ) :=
  if C.ngr = 1 then
    if step4ok s C joff then .ok (fun l j => buf l (jremap s C joff j)) else .ub
  else if ∀ l, 0 ≤ l → l < C.ngr → step5ok s C joff l then .ok (step5 s C joff buf) else .ub

/-! ## The ghost zones along x2: Steps 8 and 9 -/

/-- `lx2_id` and `rx2_id` of a Domain periodic in x2. -/
def leftOf (C : Cut) (l : ℤ) : ℤ := if l = 0 then C.ngr - 1 else l - 1
def rightOf (C : Cut) (l : ℤ) : ℤ := if l = C.ngr - 1 then 0 else l + 1

/-- The ghost zones along x2: src/bvals_shear.c:508-524 with one Grid (which is its own
neighbour) and 545-685 with several; 1104-1120, 1141-1281. -/
def ghostY (C : Cut) (r : ℤ → ℤ → ℝ) (l j : ℤ) : ℝ :=
  if j < C.js then r (leftOf C l) (C.je - C.ng + 1 + (j - (C.js - C.ng)))
  else if C.je < j then r (rightOf C l) (C.js + (j - (C.je + 1)))
  else r l j

/-- `ShearingSheet_ix1`, `ShearingSheet_ox1` for one row of one variable: Steps 3 to 9,
src/bvals_shear.c:224-685 and 818-1281. -/
noncomputable def sheetRow (o : Order) (s : Edge) (C : Cut) (eps : ℝ) (joff : ℤ)
    (rows : ℤ → ℤ → ℝ) : Res (ℤ → ℤ → ℝ) :=
  (shift s C joff (fun l => remap o eps (rows l))).bind fun r => .ok (ghostY C r)

/-! ## Specification -/

/-- The Grids hold the row `g` of the whole Domain, in their active zones and in their ghost
zones. -/
def Holds (C : Cut) (rows : ℤ → ℤ → ℝ) (g : ℤ → ℝ) : Prop :=
  ∀ l, 0 ≤ l → l < C.ngr → ∀ j, C.js - C.ng ≤ j → j ≤ C.je + C.ng →
    rows l j = g (l * C.nx + (j - C.js))

/-- The same in the active zones alone. -/
def HoldsIn (C : Cut) (rows : ℤ → ℤ → ℝ) (g : ℤ → ℝ) : Prop :=
  ∀ l, 0 ≤ l → l < C.ngr → ∀ j, C.js ≤ j → j ≤ C.je → rows l j = g (l * C.nx + (j - C.js))

/-- The cuts the code is meant for: at least one Grid, and no more ghost zones than zones, at
least the three that the remap reads (`nghost` is 4 or 5, src/defs.h.in:129-134). -/
structure Cut.Fit (C : Cut) : Prop where
  ngr : 1 ≤ C.ngr
  ng : 3 ≤ C.ng
  nx : C.ng ≤ C.nx

/-- Which way a row moves: up at ix1, down at ox1. -/
def Edge.sign : Edge → ℤ
  | .ix1 => 1
  | .ox1 => -1

/-! ## The shift -/

theorem periodic_mul {g : ℤ → ℝ} {N : ℤ} (h : ∀ m, g (m + N) = g m) (k m : ℤ) : g (m + N * k) = g m := by
  induction k using Int.induction_on with
  | zero => simp
  | succ i ih => rw [← ih, ← h (m + N * i)]; congr 1; ring
  | pred i ih =>
    rw [← ih, ← h (m + N * (-(i : ℤ) - 1))]; congr 1; ring

theorem nGrids_facts {C : Cut} (h : C.Fit) {joff : ℤ} (j0 : 0 ≤ joff) (j1 : joff < C.total) :
    0 ≤ nGrids C joff ∧ nGrids C joff + 1 ≤ C.ngr ∧ 0 ≤ overlap C joff ∧ overlap C joff < C.nx ∧
    joff = nGrids C joff * C.nx + overlap C joff := by
  have hx : 0 < C.nx := by have := h.ng; have := h.nx; omega
  have e : nGrids C joff = joff / C.nx := Int.tdiv_eq_ediv_of_nonneg j0
  have m := Int.emod_add_mul_ediv joff C.nx
  have m0 := Int.emod_nonneg joff hx.ne'
  have m1 := Int.emod_lt_of_pos joff hx
  have ov : overlap C joff = joff % C.nx := by
    unfold overlap; rw [e]; rw [mul_comm]; omega
  have n1 : joff / C.nx < C.ngr := by
    apply Int.ediv_lt_of_lt_mul hx
    exact j1
  refine ⟨?_, by rw [e]; omega, by rw [ov]; exact m0, by rw [ov]; exact m1, by unfold overlap; ring⟩
  rw [e]
  exact Int.ediv_nonneg j0 hx.le

theorem shift_global {C : Cut} (h : C.Fit) (s : Edge) {joff : ℤ} (j0 : 0 ≤ joff) (j1 : joff < C.total)
    {buf : ℤ → ℤ → ℝ} {b : ℤ → ℝ} (hb : HoldsIn C buf b) (per : ∀ m, b (m + C.total) = b m) :
    ∃ r, shift s C joff buf = .ok r ∧ HoldsIn C r (fun m => b (m - s.sign * joff)) := by
  have hx : 0 < C.nx := by have := h.ng; have := h.nx; omega
  have sub : ∀ m, b (m - C.total) = b m := by
    intro m; rw [← per (m - C.total)]; congr 1; ring
  unfold shift
  by_cases one : C.ngr = 1
  · have jn : joff < C.nx := by unfold Cut.total at j1; rw [one, one_mul] at j1; exact j1
    have tot : C.total = C.nx := by unfold Cut.total; rw [one, one_mul]
    have hok : step4ok s C joff := by
      intro j a c
      unfold Cut.js Cut.je at *
      cases s
      · simp only [jremap, Cut.js]
        split_ifs <;> constructor <;> omega
      · simp only [jremap, Cut.je]
        split_ifs <;> constructor <;> omega
    rw [if_pos one, if_pos hok]
    refine ⟨_, rfl, ?_⟩
    intro l l0 l1 j a c
    obtain ⟨p, q⟩ := hok j a c
    dsimp only
    rw [hb l l0 l1 _ p q]
    have hl : l = 0 := by omega
    subst hl
    cases s
    · simp only [jremap, Edge.sign]
      split_ifs with hw
      · rw [← sub, tot]; congr 1; ring
      · congr 1; ring
    · simp only [jremap, Edge.sign]
      split_ifs with hw
      · rw [← per, tot]; congr 1; ring
      · congr 1; ring
  · obtain ⟨n0, n1, v0, v1, hj⟩ := nGrids_facts h j0 j1
    have hngr := h.ngr
    rw [if_neg one]
    set n := nGrids C joff with hn
    set v := overlap C joff with hv
    have hok : ∀ l, 0 ≤ l → l < C.ngr → step5ok s C joff l := by
      intro l l0 l1
      refine ⟨v0, fun hv0 => ?_, fun hn0 => ?_⟩
      · cases s <;> simp only [toA, fromA, wrapHi, wrapLo, ← hn] <;> (split_ifs <;> refine ⟨⟨?_, ?_⟩, ?_⟩ <;> omega)
      · cases s <;> simp only [toE, fromE, wrapHi, wrapLo, ← hn] <;> (split_ifs <;> refine ⟨⟨?_, ?_⟩, ?_⟩ <;> omega)
    rw [if_pos hok]
    refine ⟨_, rfl, ?_⟩
    intro l l0 l1 j a c
    obtain ⟨-, kA, kE⟩ := hok l l0 l1
    cases s
    · simp only [step5, ← hn, ← hv, Edge.sign]
      by_cases c1 : j ≤ C.js + (v - 1)
      · rw [if_pos c1]
        have hv0 : v ≠ 0 := by intro e; rw [e] at c1; omega
        obtain ⟨⟨q0, q1⟩, -⟩ := kA hv0
        rw [hb _ q0 q1 _ (by unfold Cut.js Cut.je at *; omega) (by unfold Cut.js Cut.je at *; omega)]
        simp only [fromA, wrapLo, ← hn]
        split_ifs with hw
        · rw [← sub]; congr 1; unfold Cut.js Cut.je Cut.total at *; rw [hj]; ring
        · congr 1; unfold Cut.js Cut.je at *; rw [hj]; ring
      · rw [if_neg c1]
        by_cases c2 : n = 0
        · rw [if_pos c2, hb _ l0 l1 _ (by unfold Cut.js Cut.je at *; omega) (by unfold Cut.js Cut.je at *; omega)]
          congr 1; rw [hj, c2]; ring
        · rw [if_neg c2]
          obtain ⟨⟨q0, q1⟩, -⟩ := kE c2
          rw [hb _ q0 q1 _ (by unfold Cut.js Cut.je at *; omega) (by unfold Cut.js Cut.je at *; omega)]
          simp only [fromE, wrapLo, ← hn]
          split_ifs with hw
          · rw [← sub]; congr 1; unfold Cut.js Cut.total at *; rw [hj]; ring
          · congr 1; unfold Cut.js at *; rw [hj]; ring
    · simp only [step5, ← hn, ← hv, Edge.sign]
      by_cases c1 : C.je - (v - 1) ≤ j
      · rw [if_pos c1]
        have hv0 : v ≠ 0 := by intro e; rw [e] at c1; omega
        obtain ⟨⟨q0, q1⟩, -⟩ := kA hv0
        rw [hb _ q0 q1 _ (by unfold Cut.js Cut.je at *; omega) (by unfold Cut.js Cut.je at *; omega)]
        simp only [fromA, wrapHi, ← hn]
        split_ifs with hw
        · rw [← per]; congr 1; unfold Cut.js Cut.je Cut.total at *; rw [hj]; ring
        · congr 1; unfold Cut.js Cut.je at *; rw [hj]; ring
      · rw [if_neg c1]
        by_cases c2 : n = 0
        · rw [if_pos c2, hb _ l0 l1 _ (by unfold Cut.js Cut.je at *; omega) (by unfold Cut.js Cut.je at *; omega)]
          congr 1; rw [hj, c2]; ring
        · rw [if_neg c2]
          obtain ⟨⟨q0, q1⟩, -⟩ := kE c2
          rw [hb _ q0 q1 _ (by unfold Cut.js Cut.je at *; omega) (by unfold Cut.js Cut.je at *; omega)]
          simp only [fromE, wrapHi, ← hn]
          split_ifs with hw
          · rw [← per]; congr 1; unfold Cut.js Cut.total at *; rw [hj]; ring
          · congr 1; unfold Cut.js at *; rw [hj]; ring

/-- The ghost zones along x2 hold the continuation of the row. -/
theorem ghostY_global {C : Cut} (h : C.Fit) {r : ℤ → ℤ → ℝ} {b : ℤ → ℝ} (hb : HoldsIn C r b)
    (per : ∀ m, b (m + C.total) = b m) : Holds C (ghostY C r) b := by
  have hx := h.nx
  have hg := h.ng
  have hn := h.ngr
  intro l l0 l1 j a c
  unfold ghostY
  by_cases c1 : j < C.js
  · rw [if_pos c1]
    unfold leftOf
    split_ifs with hl
    · rw [hb _ (by omega) (by omega) _ (by unfold Cut.js Cut.je at *; omega) (by unfold Cut.js Cut.je at *; omega),
        ← per (l * C.nx + (j - C.js)), hl]
      congr 1; unfold Cut.js Cut.je Cut.total; ring
    · rw [hb _ (by omega) (by omega) _ (by unfold Cut.js Cut.je at *; omega) (by unfold Cut.js Cut.je at *; omega)]
      congr 1; unfold Cut.js Cut.je; ring
  · rw [if_neg c1]
    by_cases c2 : C.je < j
    · rw [if_pos c2]
      unfold rightOf
      split_ifs with hl
      · rw [hb _ (by omega) (by omega) _ (by unfold Cut.js Cut.je at *; omega) (by unfold Cut.js Cut.je at *; omega),
          ← per, hl]
        congr 1; unfold Cut.js Cut.je Cut.total; ring
      · rw [hb _ (by omega) (by omega) _ (by unfold Cut.js Cut.je at *; omega) (by unfold Cut.js Cut.je at *; omega)]
        congr 1; unfold Cut.js Cut.je; ring
    · rw [if_neg c2, hb l l0 l1 j (by omega) (by omega)]

/-- The remap of the Grids is that of the whole row. -/
theorem remap_global {C : Cut} (h : C.Fit) (o : Order) (eps : ℝ) {rows : ℤ → ℤ → ℝ} {g : ℤ → ℝ}
    (hr : Holds C rows g) : HoldsIn C (fun l => remap o eps (rows l)) (remap o eps g) := by
  have hg := h.ng
  intro l l0 l1 j a c
  dsimp only
  rw [show l * C.nx + (j - C.js) = j + (l * C.nx - C.js) by ring, ← remap_shift]
  apply remap_local
  intro m m0 m1
  rw [hr l l0 l1 m (by unfold Cut.js Cut.je at *; omega) (by unfold Cut.js Cut.je at *; omega)]
  congr 1; ring

/-- The shearing-sheet condition on a row, for the offset in whole zones and the fraction of a
zone it is given: every Grid of the Domain gets its part of the row moved by both. -/
theorem sheetRow_global {C : Cut} (h : C.Fit) (o : Order) (s : Edge) (eps : ℝ) {joff : ℤ} (j0 : 0 ≤ joff)
    (j1 : joff < C.total) {rows : ℤ → ℤ → ℝ} {g : ℤ → ℝ} (hr : Holds C rows g)
    (per : ∀ m, g (m + C.total) = g m) :
    ∃ R, sheetRow o s C eps joff rows = .ok R ∧
      Holds C R (fun m => remap o eps g (m - s.sign * joff)) := by
  have pr : ∀ m, remap o eps g (m + C.total) = remap o eps g m := remap_periodic o per eps
  obtain ⟨r, e, hb⟩ := shift_global h s j0 j1 (remap_global h o eps hr) pr
  refine ⟨ghostY C r, ?_, ghostY_global h hb ?_⟩
  · unfold sheetRow; rw [e]; rfl
  · intro m
    show remap o eps g (m + C.total - s.sign * joff) = _
    rw [show m + C.total - s.sign * joff = m - s.sign * joff + C.total by ring, pr]

/-! ## The offset -/

/-- For a box that has sheared forward, the offset in whole zones is the whole number of zones
sheared, up to turns of the box, and the fraction is the fraction. -/
theorem offset_facts {yshear dx2 : ℝ} {N : ℤ} (hN : 0 < N) (hd : 0 < dx2) (hy : 0 ≤ yshear) :
    0 ≤ joffset yshear (N * dx2) dx2 ∧ joffset yshear (N * dx2) dx2 < N ∧
    (∃ k : ℤ, ⌊yshear / dx2⌋ = joffset yshear (N * dx2) dx2 + N * k) ∧
    (∀ s : Edge, epsOf s yshear (N * dx2) dx2 = s.sign * Int.fract (yshear / dx2)) := by
  have hNr : (0 : ℝ) < N := by exact_mod_cast hN
  have hL : 0 < (N : ℝ) * dx2 := mul_pos hNr hd
  set S := yshear / dx2 with hS
  have hS0 : 0 ≤ S := div_nonneg hy hd.le
  have hq : 0 ≤ yshear / (N * dx2) := div_nonneg hy hL.le
  set K := ⌊yshear / (N * dx2)⌋ with hK
  have hf : cFmod yshear (N * dx2) = (S - N * K) * dx2 := by
    unfold cFmod cTrunc
    rw [if_pos hq, ← hK, hS]
    field_simp
  have hw : yshear / (N * dx2) = S / N := by rw [hS]; field_simp
  have k0 : (K : ℝ) ≤ S / N := by rw [← hw]; exact Int.floor_le _
  have k1 : S / N < K + 1 := by rw [← hw]; exact Int.lt_floor_add_one _
  rw [le_div_iff₀ hNr] at k0
  rw [div_lt_iff₀ hNr] at k1
  have r0 : 0 ≤ S - N * K := by nlinarith
  have r1 : S - N * K < N := by nlinarith
  have hdiv : cFmod yshear (N * dx2) / dx2 = S - N * K := by rw [hf]; field_simp
  have hfl : ⌊S - N * K⌋ = ⌊S⌋ - N * K := by
    rw [show S - N * K = S - ((N * K : ℤ) : ℝ) by push_cast; ring, Int.floor_sub_intCast]
  have hj : joffset yshear (N * dx2) dx2 = ⌊S⌋ - N * K := by
    unfold joffset cTrunc
    rw [hdiv, if_pos r0, hfl]
  refine ⟨?_, ?_, ⟨K, by rw [hj]; ring⟩, ?_⟩
  · rw [hj, ← hfl]; exact Int.floor_nonneg.2 r0
  · rw [hj, ← hfl]; exact Int.floor_lt.2 r1
  · have fr : cFmod (cFmod yshear (N * dx2)) dx2 / dx2 = Int.fract S := by
      have : cFmod (cFmod yshear (N * dx2)) dx2 = (Int.fract S) * dx2 := by
        unfold cFmod cTrunc at *
        rw [if_pos hq, ← hK] at hdiv hf ⊢
        rw [hdiv, if_pos r0, hfl, hf]
        unfold Int.fract
        push_cast
        ring
      rw [this]; field_simp
    intro s
    cases s
    · simp only [epsOf, Edge.sign]
      rw [fr]; simp
    · simp only [epsOf, Edge.sign]
      rw [neg_div, fr]; simp

/-- **The shearing-sheet condition on a row.**  A box that has sheared by `S` zones along x2, for
any `S` of zero or more: the row arrives in every Grid moved by the whole zones of `S` and
remapped by the fraction, up at the inner edge and down at the outer edge, in the active zones
and in the ghost zones along x2.  What a zone gets depends on its place in the Domain and not on
how the Domain is cut into Grids. -/
theorem sheet_row {C : Cut} (h : C.Fit) (o : Order) (s : Edge) {yshear dx2 : ℝ} (hd : 0 < dx2)
    (hy : 0 ≤ yshear) {rows : ℤ → ℤ → ℝ} {g : ℤ → ℝ} (hr : Holds C rows g)
    (per : ∀ m, g (m + C.total) = g m) :
    ∃ R, sheetRow o s C (epsOf s yshear (C.total * dx2) dx2)
        (joffset yshear (C.total * dx2) dx2) rows = .ok R ∧
      Holds C R (fun m => remap o (s.sign * Int.fract (yshear / dx2)) g
        (m - s.sign * ⌊yshear / dx2⌋)) := by
  have hN : 0 < C.total := by
    have := h.ngr; have := h.ng; have := h.nx
    exact mul_pos (by omega) (by omega)
  obtain ⟨a, b, ⟨k, hk⟩, he⟩ := offset_facts hN hd hy
  obtain ⟨R, e, hR⟩ := sheetRow_global h o s (epsOf s yshear (C.total * dx2) dx2) a b hr per
  refine ⟨R, e, ?_⟩
  intro l l0 l1 j p q
  rw [hR l l0 l1 j p q, he s]
  dsimp only
  rw [hk, ← periodic_mul (remap_periodic o per _) (-s.sign * k)]
  congr 1; ring

end Athena.Shear
