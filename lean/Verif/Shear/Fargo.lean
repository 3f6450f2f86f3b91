import Verif.Shear.State
import Mathlib.Data.Int.Interval

/-!
# Orbital advection

`Fargo()` of src/bvals_shear.c, which the main loop calls after the integrator
(src/main.c:549-550) to carry every row of zones along x2 with the background flow.  Both
versions are modelled, the shearing box and the cylindrical grid, which differ in the flow and
in the radii in the induction step.

Real arithmetic is exact.  Zones are numbered as the Grid numbers them; the arrays of the routine
have `nfghost` ghost zones where the Grid has `nghost`.
-/

namespace Athena.Shear

/-- What a zone holds: the conserved variables, the field centred in the zone and on its faces,
and the passive scalars. -/
inductive Q where
  | d | m1 | m2 | m3 | e | b1c | b2c | b3c | b1 | b2 | b3
  | s (n : ℕ)
  deriving DecidableEq

/-- A variable on all Grids of a Domain: x3 index, x1 index, Grid along x2, x2 index in the
Grid. -/
abbrev Fld := ℤ → ℤ → ℤ → ℤ → ℝ

/-- What the routine is told.  `yc i`, `yf i`: the distance the flow goes in the step at the centre
and at the left face of column `i` (`yshear`, src/bvals_shear.c:5155, 5158, 5227, 5230); `qd i`:
`qom_dt` or `qsh*Om*dt` (5010, 5021); `rc`, `rf`: `r`, `ri`, or 1 in the shearing box; `three`:
`Nx[2] > 1`; `nf`: `nfghost`. -/
structure Adv where
  o : Order
  cut : Cut
  nf : ℤ
  is : ℤ
  ie : ℤ
  three : Bool
  mhd : Bool
  yc : ℤ → ℝ
  yf : ℤ → ℝ
  qd : ℤ → ℝ
  rc : ℤ → ℝ
  rf : ℤ → ℝ
  dx1 : ℝ
  dx2 : ℝ
  dx3 : ℝ

/-- The numbering of the arrays of the routine, `jfs = nfghost`: src/bvals_shear.c:4964. -/
def Adv.fcut (A : Adv) : Cut := ⟨A.cut.ngr, A.cut.nx, A.nf⟩

/-- Step 1, the energy after the source term: src/bvals_shear.c:5005-5014, 5016-5027. -/
noncomputable def step1 (A : Adv) (U : Q → Fld) (v : Q) : Fld := fun k i l j =>
  match v with
  | .e =>
    let e1 := if A.mhd then
        U .e k i l j - A.qd i * U .b1c k i l j * (U .b2c k i l j - A.qd i / 2 * U .b1c k i l j)
      else U .e k i l j
    e1 + A.qd i * U .m1 k i l j * U .m2 k i l j / U .d k i l j
  | v => U v k i l j

/-- Step 1, one row of `FargoVars`, over what it held before: src/bvals_shear.c:4997-5041. -/
noncomputable def copied (A : Adv) (stale V : ℤ → ℤ → ℝ) (l j : ℤ) : ℝ :=
  if A.fcut.js ≤ j ∧ j ≤ A.fcut.je + 1 then V l (j - (A.fcut.js - A.cut.js)) else stale l j

/-- Step 2, with one Grid along x2, after `n` turns of the loop: src/bvals_shear.c:5051-5054. -/
def fillOne (C : Cut) (V : ℤ → ℝ) : ℕ → ℤ → ℝ
  | 0 => V
  | n + 1 =>
    let W := fillOne C V n
    let W1 := fun m => if m = C.js - ((n : ℤ) + 1) then W (C.je - n) else W m
    fun m => if m = C.je + ((n : ℤ) + 1) then W1 (C.js + n) else W1 m

/-- Step 3, with several Grids: the messages to the right, then those to the left:
src/bvals_shear.c:5066-5142. -/
def fillMsg (C : Cut) (V : ℤ → ℤ → ℝ) (l j : ℤ) : ℝ :=
  let V1 := fun l j => if C.js - C.ng ≤ j ∧ j ≤ C.js - 1 then
    V (leftOf C l) (C.je - C.ng + 1 + (j - (C.js - C.ng))) else V l j
  if C.je + 1 ≤ j ∧ j ≤ C.je + C.ng then V1 (rightOf C l) (C.js + (j - (C.je + 1))) else V1 l j

/-- Steps 2 and 3: src/bvals_shear.c:5047-5144. -/
def fillY (C : Cut) (V : ℤ → ℤ → ℝ) (l : ℤ) : ℤ → ℝ :=
  if C.ngr = 1 then fillOne C (V l) C.ng.toNat else fillMsg C V l

/-- `joffset` and `eps`: src/bvals_shear.c:5160, 5163. -/
noncomputable def Adv.joff (A : Adv) (y : ℝ) : ℤ := cTrunc (y / A.dx2)
noncomputable def Adv.eps (A : Adv) (y : ℝ) : ℝ := cFmod y A.dx2 / A.dx2

/-- The zones passed over: src/bvals_shear.c:5178-5183. -/
noncomputable def whole (V : ℤ → ℝ) (J j : ℤ) : ℝ :=
  ∑ jj ∈ Finset.Icc 1 J, V (j - jj) - ∑ jj ∈ Finset.Icc (J + 1) 0, V (j - jj)

/-- Step 4, `FargoFlx` of a row of the zones `V`: src/bvals_shear.c:5171-5184, 5191-5202,
5237-5250. -/
noncomputable def fflux (A : Adv) (y : ℝ) (V : ℤ → ℝ) (j : ℤ) : ℝ :=
  remapFlux A.o V (A.eps y) (j - A.joff y) + whole V (A.joff y) j

/-- The row of a variable as Step 4 sees it. -/
noncomputable def Adv.row (A : Adv) (stale U : Q → Fld) (v : Q) (k i l : ℤ) : ℤ → ℝ :=
  fillY A.fcut (copied A (stale v k i) (step1 A U v k i)) l

/-- `jj = j-js+jfs`: src/bvals_shear.c:5260, 5295, 5328. -/
def Adv.jj (A : Adv) (j : ℤ) : ℤ := j - A.cut.js + A.fcut.js

/-- The flux of a centred variable between zones `j-1` and `j`: src/bvals_shear.c:5167-5205. -/
noncomputable def Adv.flx (A : Adv) (stale U : Q → Fld) (v : Q) (k i l j : ℤ) : ℝ :=
  fflux A (A.yc i) (A.row stale U v k i l) (A.jj j)

/-- `emfx`, from B3 at the centre of the column: src/bvals_shear.c:5210-5223. -/
noncomputable def Adv.emfx (A : Adv) (stale U : Q → Fld) (k i l j : ℤ) : ℝ :=
  let V := A.row stale U .b3 k i l
  let y := A.yc i;
  -remapFlux A.o V (A.eps y) (A.jj j - A.joff y) - ∑ jj ∈ Finset.Icc 1 (A.joff y), V (A.jj j - jj) +
    ∑ jj ∈ Finset.Icc (A.joff y + 1) 0, V (A.jj j - jj)

/-- `emfz`, from B1 at the face of the column: src/bvals_shear.c:5225-5250. -/
noncomputable def Adv.emfz (A : Adv) (stale U : Q → Fld) (k i l j : ℤ) : ℝ :=
  fflux A (A.yf i) (A.row stale U .b1 k i l) (A.jj j)

/-- Step 6: src/bvals_shear.c:5292-5372. -/
noncomputable def Adv.b1' (A : Adv) (stale U : Q → Fld) : Fld := fun k i l j =>
  U .b1 k i l j - (A.emfz stale U k i l (j + 1) - A.emfz stale U k i l j)

noncomputable def Adv.b2' (A : Adv) (stale U : Q → Fld) : Fld := fun k i l j =>
  let b := U .b2 k i l j +
    A.dx2 / A.dx1 * (A.rf (i + 1) * A.emfz stale U k (i + 1) l j - A.rf i * A.emfz stale U k i l j)
  if A.three then
    b - A.rc i * A.dx2 / A.dx3 * (A.emfx stale U (k + 1) i l j - A.emfx stale U k i l j)
  else b

noncomputable def Adv.b3' (A : Adv) (stale U : Q → Fld) : Fld := fun k i l j =>
  U .b3 k i l j + (A.emfx stale U k i l (j + 1) - A.emfx stale U k i l j)

/-- Steps 5 to 7: src/bvals_shear.c:5258-5393.  The formulas are those of the entries the loops
write; what lies outside is overwritten by the boundary conditions that follow. -/
noncomputable def Adv.out (A : Adv) (stale U : Q → Fld) : Q → Fld
  | .b1 => A.b1' stale U
  | .b2 => A.b2' stale U
  | .b3 => A.b3' stale U
  | .b1c => fun k i l j => 1 / 2 * (A.rf i / A.rc i * A.b1' stale U k i l j +
      A.rf (i + 1) / A.rc i * A.b1' stale U k (i + 1) l j)
  | .b2c => fun k i l j => 1 / 2 * (A.b2' stale U k i l j + A.b2' stale U k i l (j + 1))
  | .b3c => fun k i l j => if A.three then
      1 / 2 * (A.b3' stale U k i l j + A.b3' stale U (k + 1) i l j) else U .b3c k i l j
  | v => fun k i l j => step1 A U v k i l j - (A.flx stale U v k i l (j + 1) - A.flx stale U v k i l j)

/-- A row must not go further than the extra ghost zones: src/bvals_shear.c:5161-5162,
5233-5234. -/
def Adv.far (A : Adv) (y : ℝ) : Prop := |A.joff y| > A.fcut.js - A.cut.js

open Classical in
/-- `Fargo`: src/bvals_shear.c:4958-5396.  `stale`: what `FargoVars` holds when it is called. -/
noncomputable def fargo (A : Adv) (stale U : Q → Fld) : Res (Q → Fld) :=
  if ∃ i, A.is ≤ i ∧ i ≤ A.ie + 1 ∧ (A.far (A.yc i) ∨ (A.mhd = true ∧ A.far (A.yf i))) then .fatal
  else .ok (A.out stale U)

/-! ## Specification -/

/-- The Grids hold the state `G` of the whole Domain, in their active zones. -/
def HoldsQ (A : Adv) (U : Q → Fld) (G : Q → ℤ → ℤ → ℤ → ℝ) : Prop :=
  ∀ v k i, HoldsIn A.cut (U v k i) (G v k i)

/-- The runs the routine is meant for. -/
structure Adv.Fit (A : Adv) : Prop where
  cut : A.cut.Fit
  more : A.cut.ng ≤ A.nf
  small : A.cut.ngr = 1 ∨ A.nf ≤ A.cut.nx
  dx : 0 < A.dx2

/-- Variables carried with the zones. -/
def Q.centred : Q → Prop
  | .d | .m1 | .m2 | .m3 | .e | .s _ => True
  | _ => False

/-- A row `g` carried along x2 by `y`: by the whole zones, and by the remap for the rest. -/
noncomputable def Adv.carried (A : Adv) (y : ℝ) (g : ℤ → ℝ) (m : ℤ) : ℝ :=
  remap A.o (A.eps y) g (m - A.joff y)

/-- The field along x2 of the whole Domain after the step: what is on its way through an x2 face
counts with the width of the face. -/
noncomputable def Adv.induced (A : Adv) (G : Q → ℤ → ℤ → ℤ → ℝ) (k i m : ℤ) : ℝ :=
  G .b2 k i m + A.dx2 / A.dx1 * (A.rf (i + 1) * fflux A (A.yf (i + 1)) (G .b1 k (i + 1)) m -
      A.rf i * fflux A (A.yf i) (G .b1 k i) m) +
    if A.three then A.rc i * A.dx2 / A.dx3 * (fflux A (A.yc i) (G .b3 (k + 1) i) m -
      fflux A (A.yc i) (G .b3 k i) m) else 0

/-- The divergence of the field of a zone, from the arrays of its Grid. -/
noncomputable def Adv.div (A : Adv) (U : Q → Fld) (k i l j : ℤ) : ℝ :=
  ((A.rf (i + 1) * U .b1 k (i + 1) l j - A.rf i * U .b1 k i l j) / A.dx1 +
    (U .b2 k i l (j + 1) - U .b2 k i l j) / A.dx2) / A.rc i +
  if A.three then (U .b3 (k + 1) i l j - U .b3 k i l j) / A.dx3 else 0

/-! ## The offset -/

theorem Adv.joff_eps (A : Adv) (hd : 0 < A.dx2) (y : ℝ) : (A.joff y : ℝ) + A.eps y = y / A.dx2 := by
  unfold Adv.joff Adv.eps cFmod
  field_simp
  ring

theorem Adv.eps_bounds (A : Adv) (hd : 0 < A.dx2) (y : ℝ) : -1 < A.eps y ∧ A.eps y < 1 := by
  have e := A.joff_eps hd y
  unfold Adv.joff cTrunc at e
  split_ifs at e with h
  · have a := Int.floor_le (y / A.dx2)
    have b := Int.lt_floor_add_one (y / A.dx2)
    constructor <;> linarith
  · have a := Int.le_ceil (y / A.dx2)
    have b := Int.ceil_lt_add_one (y / A.dx2)
    constructor <;> linarith

theorem cTrunc_int (n : ℤ) : cTrunc n = n := by
  unfold cTrunc
  split_ifs <;> simp

/-! ## The fluxes -/

theorem whole_zero (V : ℤ → ℝ) (j : ℤ) : whole V 0 j = 0 := by simp [whole]

theorem whole_succ (V : ℤ → ℝ) {J : ℤ} (h : 0 ≤ J) (j : ℤ) :
    whole V (J + 1) j = whole V J j + V (j - (J + 1)) := by
  unfold whole
  have e : Finset.Icc 1 (J + 1) = insert (J + 1) (Finset.Icc 1 J) := by
    ext x; simp only [Finset.mem_Icc, Finset.mem_insert]; omega
  have e1 : Finset.Icc (J + 1) 0 = ∅ := Finset.Icc_eq_empty (by omega)
  have e2 : Finset.Icc (J + 1 + 1) 0 = ∅ := Finset.Icc_eq_empty (by omega)
  rw [e, Finset.sum_insert (by simp), e1, e2]
  simp
  ring

theorem whole_pred (V : ℤ → ℝ) {J : ℤ} (h : J ≤ 0) (j : ℤ) :
    whole V (J - 1) j = whole V J j - V (j - J) := by
  unfold whole
  have e : Finset.Icc (J - 1 + 1) 0 = insert J (Finset.Icc (J + 1) 0) := by
    ext x; simp only [Finset.mem_Icc, Finset.mem_insert]; omega
  have e1 : Finset.Icc 1 (J - 1) = ∅ := Finset.Icc_eq_empty (by omega)
  have e2 : Finset.Icc 1 J = ∅ := Finset.Icc_eq_empty (by omega)
  rw [e, Finset.sum_insert (by simp), e1, e2]
  simp
  ring

theorem whole_tele (V : ℤ → ℝ) (J j : ℤ) : whole V J (j + 1) - whole V J j = V j - V (j - J) := by
  induction J using Int.induction_on with
  | zero => simp [whole_zero]
  | succ n ih =>
    rw [whole_succ V (by omega), whole_succ V (by omega), show j + 1 - ((n : ℤ) + 1) = j - n by ring]
    linarith
  | pred n ih =>
    rw [whole_pred V (by omega), whole_pred V (by omega), show j - (-(n : ℤ) - 1) = j + 1 - -(n : ℤ) by ring]
    linarith

theorem whole_congr {V W : ℤ → ℝ} {J i j : ℤ}
    (h : ∀ m, -|J| ≤ m → m < |J| → V (j + m) = W (i + m)) : whole V J j = whole W J i := by
  unfold whole
  congr 1
  · apply Finset.sum_congr rfl
    intro x hx
    rw [Finset.mem_Icc] at hx
    have := h (-x) (by rw [abs_of_nonneg (by omega)]; omega) (by rw [abs_of_nonneg (by omega)]; omega)
    rw [← sub_eq_add_neg, ← sub_eq_add_neg] at this
    exact this
  · apply Finset.sum_congr rfl
    intro x hx
    rw [Finset.mem_Icc] at hx
    have := h (-x) (by rw [abs_of_nonpos (by omega)]; omega) (by rw [abs_of_nonpos (by omega)]; omega)
    rw [← sub_eq_add_neg, ← sub_eq_add_neg] at this
    exact this

theorem whole_const (c : ℝ) (J j : ℤ) : whole (fun _ => c) J j = J * c := by
  induction J using Int.induction_on with
  | zero => simp [whole_zero]
  | succ n ih => rw [whole_succ _ (by omega), ih]; push_cast; ring
  | pred n ih => rw [whole_pred _ (by omega), ih]; push_cast; ring

/-- Taking the difference of the fluxes carries the row. -/
theorem fflux_tele (A : Adv) (y : ℝ) (V : ℤ → ℝ) (j : ℤ) :
    V j - (fflux A y V (j + 1) - fflux A y V j) = A.carried y V j := by
  have := whole_tele V (A.joff y) j
  unfold fflux Adv.carried remap
  rw [show j + 1 - A.joff y = j - A.joff y + 1 by ring]
  linarith

/-- The flux at `j` reads at most `|joffset|+3` zones to either side. -/
theorem fflux_congr (A : Adv) (y : ℝ) {V W : ℤ → ℝ} {i j : ℤ}
    (h : ∀ m, -|A.joff y| - 3 ≤ m → m ≤ |A.joff y| + 2 → V (j + m) = W (i + m)) :
    fflux A y V j = fflux A y W i := by
  have a := neg_abs_le (A.joff y)
  have b := le_abs_self (A.joff y)
  unfold fflux
  congr 1
  · apply flux_congr
    intro k k0 k1
    have := h (k - A.joff y) (by omega) (by omega)
    rw [show j - A.joff y + k = j + (k - A.joff y) by ring,
      show i - A.joff y + k = i + (k - A.joff y) by ring]
    exact this
  · apply whole_congr
    intro m m0 m1
    exact h m (by omega) (by omega)

theorem fflux_shift (A : Adv) (y : ℝ) (W : ℤ → ℝ) (a j : ℤ) :
    fflux A y (fun m => W (m + a)) j = fflux A y W (j + a) :=
  fflux_congr A y (fun m _ _ => by congr 1; ring)

theorem Adv.emfx_eq (A : Adv) (stale U : Q → Fld) (k i l j : ℤ) :
    A.emfx stale U k i l j = -fflux A (A.yc i) (A.row stale U .b3 k i l) (A.jj j) := by
  unfold Adv.emfx fflux whole
  ring

/-! ## The ghost zones of the routine -/

theorem fillOne_holds {C : Cut} (hx : 1 ≤ C.nx) {V g : ℤ → ℝ} (per : ∀ m, g (m + C.nx) = g m)
    (hV : ∀ j, C.js ≤ j → j ≤ C.je → V j = g (j - C.js)) (n : ℕ) :
    ∀ j, C.js - n ≤ j → j ≤ C.je + n → fillOne C V n j = g (j - C.js) := by
  have sub : ∀ m, g (m - C.nx) = g m := by intro m; rw [← per (m - C.nx)]; congr 1; ring
  induction n with
  | zero => intro j a b; exact hV j (by simpa using a) (by simpa using b)
  | succ n ih =>
    intro j a b
    push_cast at a b
    have je : C.je = C.js + C.nx - 1 := rfl
    simp only [fillOne]
    by_cases c1 : j = C.je + ((n : ℤ) + 1)
    · rw [if_pos c1, if_neg (by omega), ih _ (by omega) (by omega), ← per, c1]
      congr 1; rw [je]; ring
    · rw [if_neg c1]
      by_cases c2 : j = C.js - ((n : ℤ) + 1)
      · rw [if_pos c2, ih _ (by omega) (by omega), ← sub, c2]
        congr 1; rw [je]; ring
      · rw [if_neg c2, ih _ (by omega) (by omega)]

theorem fillMsg_holds {C : Cut} (hn : 1 ≤ C.ngr) (hx : C.ng ≤ C.nx) {V : ℤ → ℤ → ℝ} {g : ℤ → ℝ}
    (per : ∀ m, g (m + C.total) = g m) (hV : HoldsIn C V g) : Holds C (fillMsg C V) g := by
  have je : C.je = C.js + C.nx - 1 := rfl
  have sub : ∀ m, g (m - C.total) = g m := by intro m; rw [← per (m - C.total)]; congr 1; ring
  intro l l0 l1 j a b
  unfold fillMsg
  dsimp only
  by_cases c1 : C.je + 1 ≤ j ∧ j ≤ C.je + C.ng
  · have r0 : 0 ≤ rightOf C l ∧ rightOf C l < C.ngr := by unfold rightOf; split_ifs <;> omega
    rw [if_pos c1, if_neg (by omega), hV _ r0.1 r0.2 _ (by omega) (by omega)]
    unfold rightOf
    split_ifs with e
    · rw [← per, e]; congr 1; rw [je]; unfold Cut.total; ring
    · congr 1; rw [je]; ring
  · rw [if_neg c1]
    by_cases c2 : C.js - C.ng ≤ j ∧ j ≤ C.js - 1
    · have r0 : 0 ≤ leftOf C l ∧ leftOf C l < C.ngr := by unfold leftOf; split_ifs <;> omega
      rw [if_pos c2, hV _ r0.1 r0.2 _ (by omega) (by omega)]
      unfold leftOf
      split_ifs with e
      · rw [← sub, e]; congr 1; rw [je]; unfold Cut.total; ring
      · congr 1; rw [je]; ring
    · rw [if_neg c2, hV l l0 l1 j (by omega) (by omega)]

theorem fillY_holds {C : Cut} (hn : 1 ≤ C.ngr) (hx : 1 ≤ C.nx) (h0 : 0 ≤ C.ng)
    (small : C.ngr = 1 ∨ C.ng ≤ C.nx) {V : ℤ → ℤ → ℝ} {g : ℤ → ℝ}
    (per : ∀ m, g (m + C.total) = g m) (hV : HoldsIn C V g) : Holds C (fillY C V) g := by
  by_cases e : C.ngr = 1
  · have tot : C.total = C.nx := by unfold Cut.total; rw [e, one_mul]
    intro l l0 l1 j a b
    have hl : l = 0 := by omega
    subst hl
    unfold fillY
    rw [if_pos e, fillOne_holds hx (by rw [← tot]; exact per)
      (fun j a b => by rw [hV 0 (le_refl _) (by omega) j a b]; congr 1; ring) _ j (by omega) (by omega)]
    congr 1; ring
  · have := fillMsg_holds hn (small.resolve_left e) per hV
    intro l l0 l1 j a b
    unfold fillY
    rw [if_neg e]
    exact this l l0 l1 j a b

/-- What Step 4 reads. -/
theorem row_holds {A : Adv} (h : A.Fit) {stale U : Q → Fld} {v : Q} {k i : ℤ} {g : ℤ → ℝ}
    (per : ∀ m, g (m + A.cut.total) = g m) (hU : HoldsIn A.cut (step1 A U v k i) g) :
    Holds A.fcut (A.row stale U v k i) g := by
  have h1 := h.cut.ngr
  have h2 := h.cut.ng
  have h3 := h.cut.nx
  have h4 := h.more
  apply fillY_holds (C := A.fcut)
  · exact h1
  · show 1 ≤ A.cut.nx; omega
  · show 0 ≤ A.nf; omega
  · exact h.small
  · exact per
  · intro l l0 l1 j a b
    have ef : A.fcut.js = A.nf := rfl
    have eg : A.cut.js = A.cut.ng := rfl
    have ee : A.fcut.je = A.nf + A.cut.nx - 1 := rfl
    have e3 : A.cut.je = A.cut.ng + A.cut.nx - 1 := rfl
    have e4 : A.fcut.nx = A.cut.nx := rfl
    unfold copied
    rw [if_pos (by omega), hU l l0 l1 _ (by omega) (by omega)]
    rw [e4]
    congr 1; omega

/-- The fluxes are those of the row of the whole Domain. -/
theorem flux_holds {A : Adv} (h : A.Fit) {stale U : Q → Fld} {v : Q} {k i : ℤ} {g : ℤ → ℝ}
    (per : ∀ m, g (m + A.cut.total) = g m) (hU : HoldsIn A.cut (step1 A U v k i) g) {y : ℝ}
    (near : ¬A.far y) {l j : ℤ} (l0 : 0 ≤ l) (l1 : l < A.cut.ngr) (a : A.cut.js ≤ j) (b : j ≤ A.cut.je + 1) :
    fflux A y (A.row stale U v k i l) (A.jj j) = fflux A y g (l * A.cut.nx + (j - A.cut.js)) := by
  have hr := row_holds h (stale := stale) per hU
  have h2 := h.cut.ng
  have ef : A.fcut.js = A.nf := rfl
  have eg : A.cut.js = A.cut.ng := rfl
  have ee : A.fcut.je = A.nf + A.cut.nx - 1 := rfl
  have e3 : A.cut.je = A.cut.ng + A.cut.nx - 1 := rfl
  have e4 : A.fcut.nx = A.cut.nx := rfl
  have e5 : A.fcut.ng = A.nf := rfl
  have e6 : A.fcut.ngr = A.cut.ngr := rfl
  unfold Adv.far at near
  apply fflux_congr
  intro m m0 m1
  have ej : A.jj j = j - A.cut.ng + A.nf := rfl
  rw [hr l l0 (by omega) _ (by omega) (by omega), e4]
  congr 1; omega

/-! ## Theorems -/

theorem fargo_out {A : Adv} {stale U R : Q → Fld} (h : fargo A stale U = .ok R) : R = A.out stale U ∧
    ∀ i, A.is ≤ i → i ≤ A.ie + 1 → ¬A.far (A.yc i) ∧ (A.mhd = true → ¬A.far (A.yf i)) := by
  unfold fargo at h
  split_ifs at h with c
  refine ⟨(Res.ok.inj h).symm, fun i a b => ?_⟩
  push Not at c
  exact c i a b

theorem step1_holds {A : Adv} {U : Q → Fld} {G : Q → ℤ → ℤ → ℤ → ℝ} (hU : HoldsQ A U G) (v : Q) (k i : ℤ) :
    HoldsIn A.cut (step1 A U v k i) (fun m => step1 A (fun v k i _ j => G v k i j) v k i 0 m) := by
  intro l l0 l1 j a b
  have e : ∀ v, U v k i l j = G v k i (l * A.cut.nx + (j - A.cut.js)) := fun v => hU v k i l l0 l1 j a b
  cases v <;> simp only [step1, e]

/-- The variables of a row of the whole Domain after the energy source. -/
noncomputable def Adv.sourced (A : Adv) (G : Q → ℤ → ℤ → ℤ → ℝ) (v : Q) (k i m : ℤ) : ℝ :=
  match v with
  | .e => G .e k i m +
      (A.qd i * (G .m1 k i m * G .m2 k i m / G .d k i m) +
      if A.mhd then ((G .b2c k i m - A.qd i * G .b1c k i m) ^ 2 - G .b2c k i m ^ 2) / 2 else 0)
  | v => G v k i m

theorem sourced_eq (A : Adv) (G : Q → ℤ → ℤ → ℤ → ℝ) (v : Q) (k i m : ℤ) :
    step1 A (fun v k i _ j => G v k i j) v k i 0 m = A.sourced G v k i m := by
  cases v <;> simp only [step1, Adv.sourced]
  split_ifs <;> ring

theorem sourced_holds {A : Adv} {U : Q → Fld} {G : Q → ℤ → ℤ → ℤ → ℝ} (hU : HoldsQ A U G) (v : Q) (k i : ℤ) :
    HoldsIn A.cut (step1 A U v k i) (A.sourced G v k i) := by
  have := step1_holds hU v k i
  simp only [sourced_eq] at this
  exact this

theorem sourced_periodic {A : Adv} {G : Q → ℤ → ℤ → ℤ → ℝ}
    (per : ∀ v k i m, G v k i (m + A.cut.total) = G v k i m) (v : Q) (k i m : ℤ) :
    A.sourced G v k i (m + A.cut.total) = A.sourced G v k i m := by
  cases v <;> simp only [Adv.sourced, per]

/-- **What the advection does to the variables of the zones.**  Every row of the Domain, however
the Domain is cut into Grids, is carried along x2 by the distance the flow goes at its column: by
the whole zones and by the remap for the rest.  The energy has the work of the shear added first. -/
theorem fargo_centred {A : Adv} (h : A.Fit) {stale U R : Q → Fld} {G : Q → ℤ → ℤ → ℤ → ℝ}
    (hU : HoldsQ A U G) (per : ∀ v k i m, G v k i (m + A.cut.total) = G v k i m)
    (hR : fargo A stale U = .ok R) {v : Q} (hv : v.centred) (k : ℤ) {i : ℤ} (i0 : A.is ≤ i) (i1 : i ≤ A.ie + 1) :
    HoldsIn A.cut (R v k i) (A.carried (A.yc i) (A.sourced G v k i)) := by
  obtain ⟨e, near⟩ := fargo_out hR
  have hs := sourced_holds hU v k i
  have ps := sourced_periodic per v k i
  intro l l0 l1 j a b
  have f0 := flux_holds h (stale := stale) ps hs (near i i0 i1).1 l0 l1 a (by omega)
  have f1 := flux_holds h (stale := stale) ps hs (near i i0 i1).1 l0 l1 (j := j + 1) (by omega) (by omega)
  have key : R v k i l j = step1 A U v k i l j - (A.flx stale U v k i l (j + 1) - A.flx stale U v k i l j) := by
    subst e
    cases v <;> first | rfl | exact absurd hv (by simp [Q.centred])
  rw [key, hs l l0 l1 j a b, ← fflux_tele]
  unfold Adv.flx
  rw [f0, f1, show l * A.cut.nx + (j + 1 - A.cut.js) = l * A.cut.nx + (j - A.cut.js) + 1 by ring]

/-- **What it does to the field along x1 and x3**: the same, B1 with the flow at the faces of the
column. -/
theorem fargo_faces {A : Adv} (h : A.Fit) (mhd : A.mhd = true) {stale U R : Q → Fld} {G : Q → ℤ → ℤ → ℤ → ℝ}
    (hU : HoldsQ A U G) (per : ∀ v k i m, G v k i (m + A.cut.total) = G v k i m)
    (hR : fargo A stale U = .ok R) (k : ℤ) {i : ℤ} (i0 : A.is ≤ i) (i1 : i ≤ A.ie + 1) :
    HoldsIn A.cut (R .b1 k i) (A.carried (A.yf i) (G .b1 k i)) ∧
    HoldsIn A.cut (R .b3 k i) (A.carried (A.yc i) (G .b3 k i)) := by
  obtain ⟨e, near⟩ := fargo_out hR
  subst e
  constructor
  · intro l l0 l1 j a b
    have hs : HoldsIn A.cut (step1 A U .b1 k i) (G .b1 k i) := hU .b1 k i
    have f0 := flux_holds h (stale := stale) (per .b1 k i) hs ((near i i0 i1).2 mhd) l0 l1 a (by omega)
    have f1 := flux_holds h (stale := stale) (per .b1 k i) hs ((near i i0 i1).2 mhd) l0 l1 (j := j + 1) (by omega) (by omega)
    show U .b1 k i l j - (A.emfz stale U k i l (j + 1) - A.emfz stale U k i l j) = _
    rw [hU .b1 k i l l0 l1 j a b, ← fflux_tele]
    unfold Adv.emfz
    rw [f0, f1, show l * A.cut.nx + (j + 1 - A.cut.js) = l * A.cut.nx + (j - A.cut.js) + 1 by ring]
  · intro l l0 l1 j a b
    have hs : HoldsIn A.cut (step1 A U .b3 k i) (G .b3 k i) := hU .b3 k i
    have f0 := flux_holds h (stale := stale) (per .b3 k i) hs (near i i0 i1).1 l0 l1 a (by omega)
    have f1 := flux_holds h (stale := stale) (per .b3 k i) hs (near i i0 i1).1 l0 l1 (j := j + 1) (by omega) (by omega)
    show U .b3 k i l j + (A.emfx stale U k i l (j + 1) - A.emfx stale U k i l j) = _
    rw [hU .b3 k i l l0 l1 j a b, ← fflux_tele, A.emfx_eq, A.emfx_eq]
    rw [f0, f1, show l * A.cut.nx + (j + 1 - A.cut.js) = l * A.cut.nx + (j - A.cut.js) + 1 by ring]
    ring

/-- **What it does to the field along x2**: the shear makes it out of the other two, the same on
both sides of every boundary between two Grids. -/
theorem fargo_b2 {A : Adv} (h : A.Fit) (mhd : A.mhd = true) {stale U R : Q → Fld} {G : Q → ℤ → ℤ → ℤ → ℝ}
    (hU : HoldsQ A U G) (per : ∀ v k i m, G v k i (m + A.cut.total) = G v k i m)
    (hR : fargo A stale U = .ok R) (k : ℤ) {i : ℤ} (i0 : A.is ≤ i) (i1 : i ≤ A.ie) {l j : ℤ} (l0 : 0 ≤ l)
    (l1 : l < A.cut.ngr) (a : A.cut.js ≤ j) (b : j ≤ A.cut.je + 1)
    (hb : U .b2 k i l j = G .b2 k i (l * A.cut.nx + (j - A.cut.js))) :
    R .b2 k i l j = A.induced G k i (l * A.cut.nx + (j - A.cut.js)) := by
  obtain ⟨e, near⟩ := fargo_out hR
  subst e
  have f0 := flux_holds h (stale := stale) (U := U) (v := .b1) (per .b1 k i) (hU .b1 k i) ((near i i0 (by omega)).2 mhd) l0 l1 a b
  have f1 := flux_holds h (stale := stale) (U := U) (v := .b1) (per .b1 k (i + 1)) (hU .b1 k (i + 1))
    ((near (i + 1) (by omega) (by omega)).2 mhd) l0 l1 a b
  have x0 := flux_holds h (stale := stale) (U := U) (v := .b3) (per .b3 k i) (hU .b3 k i) (near i i0 (by omega)).1 l0 l1 a b
  have x1 := flux_holds h (stale := stale) (U := U) (v := .b3) (per .b3 (k + 1) i) (hU .b3 (k + 1) i) (near i i0 (by omega)).1 l0 l1 a b
  simp only [Adv.out, Adv.b2', A.emfx_eq, Adv.emfz, Adv.induced]
  rw [f0, f1, x0, x1, hb]
  split_ifs <;> ring

/-- **The divergence of the field is left exactly as it was**, in every zone of every Grid, on
both geometries. -/
theorem fargo_div {A : Adv} {stale U R : Q → Fld} (hR : fargo A stale U = .ok R) {i : ℤ}
    (hr : A.rc i ≠ 0) (h1 : A.dx1 ≠ 0) (h2 : A.dx2 ≠ 0) (h3 : A.dx3 ≠ 0) (k l j : ℤ) :
    A.div R k i l j = A.div U k i l j := by
  obtain ⟨e, -⟩ := fargo_out hR
  subst e
  unfold Adv.div
  simp only [Adv.out, Adv.b1', Adv.b2', Adv.b3']
  generalize A.emfz stale U k (i + 1) l (j + 1) = z11
  generalize A.emfz stale U k (i + 1) l j = z10
  generalize A.emfz stale U k i l (j + 1) = z01
  generalize A.emfz stale U k i l j = z00
  generalize A.emfx stale U (k + 1) i l (j + 1) = x11
  generalize A.emfx stale U (k + 1) i l j = x10
  generalize A.emfx stale U k i l (j + 1) = x01
  generalize A.emfx stale U k i l j = x00
  generalize A.rc i = r at *
  split_ifs
  · field_simp; ring
  · field_simp; ring

theorem carried_sum {A : Adv} (h : A.Fit) {f0 f1 : ℤ → ℤ → ℝ} {g : ℤ → ℝ} (y : ℝ)
    (per : ∀ m, g (m + A.cut.total) = g m) (h0 : HoldsIn A.cut f0 g)
    (h1 : HoldsIn A.cut f1 (A.carried y g)) : rowSum A.cut f1 = rowSum A.cut f0 := by
  have tn : ((A.cut.total.toNat : ℕ) : ℤ) = A.cut.total := by
    apply Int.toNat_of_nonneg
    have := h.cut.ngr; have := h.cut.nx; have := h.cut.ng
    exact mul_nonneg (by omega) (by omega)
  rw [rowSum_holds h.cut h0, rowSum_holds h.cut h1]
  have := sum_shift (g := remap A.o (A.eps y) g) (N := A.cut.total.toNat)
    (by rw [tn]; exact remap_periodic A.o per _) (-A.joff y)
  rw [remap_sum A.o (by rw [tn]; exact per)] at this
  exact this

/-- **Nothing is lost**: the sum over every row of mass, momentum, passive scalars and of the field
along x1 and x3 is the same after the step; that of the energy has grown by the work of the shear. -/
theorem fargo_sum {A : Adv} (h : A.Fit) {stale U R : Q → Fld} {G : Q → ℤ → ℤ → ℤ → ℝ}
    (hU : HoldsQ A U G) (per : ∀ v k i m, G v k i (m + A.cut.total) = G v k i m)
    (hR : fargo A stale U = .ok R) (k : ℤ) {i : ℤ} (i0 : A.is ≤ i) (i1 : i ≤ A.ie + 1) :
    (∀ v, v.centred → v ≠ .e → rowSum A.cut (R v k i) = rowSum A.cut (U v k i)) ∧
    (A.mhd = true → rowSum A.cut (R .b1 k i) = rowSum A.cut (U .b1 k i) ∧
      rowSum A.cut (R .b3 k i) = rowSum A.cut (U .b3 k i)) ∧
    (A.mhd = false → rowSum A.cut (R .e k i) = rowSum A.cut (U .e k i) +
      rowSum A.cut (fun l j => A.qd i * (U .m1 k i l j * U .m2 k i l j / U .d k i l j))) := by
  refine ⟨fun v hv he => ?_, fun mhd => ⟨?_, ?_⟩, fun hyd => ?_⟩
  · refine carried_sum h (A.yc i) (per v k i) (hU v k i) ?_
    have := fargo_centred h hU per hR hv k i0 i1
    have e : A.sourced G v k i = G v k i := by
      funext m
      cases v <;> first | rfl | exact absurd rfl he
    rwa [e] at this
  · exact carried_sum h _ (per .b1 k i) (hU .b1 k i) (fargo_faces h mhd hU per hR k i0 i1).1
  · exact carried_sum h _ (per .b3 k i) (hU .b3 k i) (fargo_faces h mhd hU per hR k i0 i1).2
  · rw [carried_sum h _ (sourced_periodic per .e k i) (sourced_holds hU .e k i)
      (fargo_centred h hU per hR (v := .e) trivial k i0 i1)]
    unfold rowSum
    rw [← Finset.sum_add_distrib]
    apply Finset.sum_congr rfl
    intro l _
    rw [← Finset.sum_add_distrib]
    apply Finset.sum_congr rfl
    intro m _
    simp only [step1, hyd]
    simp
    ring

/-- **The result does not depend on the cut.** -/
theorem fargo_independent {A A' : Adv} (h : A.Fit) (h' : A'.Fit)
    (same : A' = { A with cut := A'.cut, nf := A'.nf }) (tot : A'.cut.total = A.cut.total)
    {stale stale' U U' R R' : Q → Fld} {G : Q → ℤ → ℤ → ℤ → ℝ} (hU : HoldsQ A U G) (hU' : HoldsQ A' U' G)
    (per : ∀ v k i m, G v k i (m + A.cut.total) = G v k i m)
    (hR : fargo A stale U = .ok R) (hR' : fargo A' stale' U' = .ok R') {v : Q}
    (hv : v.centred ∨ (A.mhd = true ∧ (v = .b1 ∨ v = .b3))) (k : ℤ) {i : ℤ} (i0 : A.is ≤ i) (i1 : i ≤ A.ie + 1)
    {l j l' j' : ℤ} (l0 : 0 ≤ l) (l1 : l < A.cut.ngr) (a : A.cut.js ≤ j) (b : j ≤ A.cut.je)
    (l0' : 0 ≤ l') (l1' : l' < A'.cut.ngr) (a' : A'.cut.js ≤ j') (b' : j' ≤ A'.cut.je)
    (place : l * A.cut.nx + (j - A.cut.js) = l' * A'.cut.nx + (j' - A'.cut.js)) :
    R v k i l j = R' v k i l' j' := by
  have s1 : A'.is = A.is := by rw [same]
  have s2 : A'.ie = A.ie := by rw [same]
  have s3 : A'.yc = A.yc := by rw [same]
  have s4 : A'.yf = A.yf := by rw [same]
  have s5 : A'.mhd = A.mhd := by rw [same]
  have s6 : ∀ y g, A'.carried y g = A.carried y g := by intro y g; rw [same]; rfl
  have s7 : A'.sourced G = A.sourced G := by rw [same]; rfl
  have per' : ∀ v k i m, G v k i (m + A'.cut.total) = G v k i m := by rw [tot]; exact per
  rcases hv with hv | ⟨mhd, hv⟩
  · rw [fargo_centred h hU per hR hv k i0 i1 l l0 l1 j a b,
      fargo_centred h' hU' per' hR' hv k (by rw [s1]; exact i0) (by rw [s2]; exact i1) l' l0' l1' j' a' b',
      place, s6, s7, s3]
  · have q := fargo_faces h mhd hU per hR k i0 i1
    have q' := fargo_faces h' (by rw [s5]; exact mhd) hU' per' hR' k (i := i) (by rw [s1]; exact i0)
      (by rw [s2]; exact i1)
    rcases hv with rfl | rfl
    · rw [q.1 l l0 l1 j a b, q'.1 l' l0' l1' j' a' b', place, s6, s4]
    · rw [q.2 l l0 l1 j a b, q'.2 l' l0' l1' j' a' b', place, s6, s3]

/-! ### What carrying does to a row -/

/-- A distance of whole zones moves the row exactly. -/
theorem carried_whole (A : Adv) (hd : 0 < A.dx2) (n : ℤ) (g : ℤ → ℝ) (m : ℤ) :
    A.carried (n * A.dx2) g m = g (m - n) := by
  have e : A.joff (n * A.dx2) = n := by
    unfold Adv.joff
    rw [mul_div_cancel_right₀ _ hd.ne', cTrunc_int]
  have e2 : A.eps (n * A.dx2) = 0 := by
    have := A.joff_eps hd (n * A.dx2)
    rw [e, mul_div_cancel_right₀ _ hd.ne'] at this
    linarith
  unfold Adv.carried
  rw [e, e2, remap_zero]

/-- A row that is straight where it comes from moves exactly. -/
theorem carried_line (A : Adv) (hd : 0 < A.dx2) (y : ℝ) {g : ℤ → ℝ} {a b : ℝ} (m : ℤ)
    (h : ∀ k : ℤ, -3 ≤ k → k ≤ 3 → g (m - A.joff y + k) = a + b * (m - A.joff y + k : ℤ)) :
    A.carried y g m = a + b * (m - y / A.dx2) := by
  unfold Adv.carried
  rw [remap_line A.o (a := a + b * (m - A.joff y : ℤ)) (b := b) _
    (fun k k0 k1 => by rw [h k k0 k1]; push_cast; ring), ← A.joff_eps hd y]
  push_cast
  ring

theorem carried_const (A : Adv) (y c : ℝ) (m : ℤ) : A.carried y (fun _ => c) m = c :=
  remap_const A.o _ (fun _ _ _ => rfl) _

/-- At second order nothing leaves the range of the row. -/
theorem carried_bounds {A : Adv} (ho : A.o = .second) (hd : 0 < A.dx2) (y : ℝ) {g : ℤ → ℝ} {lo hi : ℝ}
    (h : ∀ m, lo ≤ g m ∧ g m ≤ hi) (m : ℤ) : lo ≤ A.carried y g m ∧ A.carried y g m ≤ hi := by
  obtain ⟨e0, e1⟩ := A.eps_bounds hd y
  unfold Adv.carried
  rw [ho]
  rcases le_total 0 (A.eps y) with p | p
  · exact remap2_bounds_pos g p e1.le _ (h _).1 (h _).2 (h _).1 (h _).2
  · exact remap2_bounds_neg g p e0.le _ (h _).1 (h _).2 (h _).1 (h _).2

/-- **Positive density stays positive at second order.** -/
theorem fargo_bounds {A : Adv} (h : A.Fit) (ho : A.o = .second) {stale U R : Q → Fld} {G : Q → ℤ → ℤ → ℤ → ℝ}
    (hU : HoldsQ A U G) (per : ∀ v k i m, G v k i (m + A.cut.total) = G v k i m)
    (hR : fargo A stale U = .ok R) {v : Q} (hv : v.centred) (he : v ≠ .e) (k : ℤ) {i : ℤ} (i0 : A.is ≤ i)
    (i1 : i ≤ A.ie + 1) {lo hi : ℝ} (hb : ∀ m, lo ≤ G v k i m ∧ G v k i m ≤ hi) {l j : ℤ} (l0 : 0 ≤ l)
    (l1 : l < A.cut.ngr) (a : A.cut.js ≤ j) (b : j ≤ A.cut.je) : lo ≤ R v k i l j ∧ R v k i l j ≤ hi := by
  have := fargo_centred h hU per hR hv k i0 i1 l l0 l1 j a b
  have e : A.sourced G v k i = G v k i := by
    funext m
    cases v <;> first | rfl | exact absurd rfl he
  rw [this, e]
  exact carried_bounds ho h.dx _ hb _

/-- **Rows the flow carries by whole zones arrive as they were.** -/
theorem fargo_whole {A : Adv} (h : A.Fit) {stale U R : Q → Fld} {G : Q → ℤ → ℤ → ℤ → ℝ}
    (hU : HoldsQ A U G) (per : ∀ v k i m, G v k i (m + A.cut.total) = G v k i m)
    (hR : fargo A stale U = .ok R) {v : Q} (hv : v.centred) (k : ℤ) {i : ℤ} (i0 : A.is ≤ i) (i1 : i ≤ A.ie + 1)
    {n : ℤ} (hy : A.yc i = n * A.dx2) {l j : ℤ} (l0 : 0 ≤ l)
    (l1 : l < A.cut.ngr) (a : A.cut.js ≤ j) (b : j ≤ A.cut.je) :
    R v k i l j = A.sourced G v k i (l * A.cut.nx + (j - A.cut.js) - n) := by
  rw [fargo_centred h hU per hR hv k i0 i1 l l0 l1 j a b, hy, carried_whole A h.dx]

end Athena.Shear
