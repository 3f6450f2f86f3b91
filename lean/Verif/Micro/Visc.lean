import Verif.Micro.Conduct

/-!
# src/microphysics/viscosity.c: explicit isotropic (Navier–Stokes) viscosity

Hydrodynamics only, as in the program: `ViscStress_aniso` (the part compiled with MHD) refers to members `x`, `y`, `z` that
`Real3Vect` does not have, so that `VISCOSITY` together with `MHD` does not compile.  Without FARGO.  With a barotropic equation of
state the energy is absent and the rest is the same.  `ONE_3RD` is taken to be 1/3.
-/

namespace Athena.Micro
open Athena.Bvals hiding Rng
open Athena.Vl3 Athena.Gen

/-- `Real3Vect`, athena.h:48-50. -/
structure V3 where
  x1 : ℝ
  x2 : ℝ
  x3 : ℝ

/-- `ViscFluxS`, viscosity.c:33-38. -/
@[ext] structure VF where
  Mx : ℝ
  My : ℝ
  Mz : ℝ
  E : ℝ

def VF.zero : VF := ⟨0, 0, 0, 0⟩
noncomputable def VF.add (a b : VF) : VF := ⟨a.Mx + b.Mx, a.My + b.My, a.Mz + b.Mz, a.E + b.E⟩

section Model
variable {ns : ℕ} (w : Which) (q : Diff ns) (g : Rng)

/-- Velocity of a zone, viscosity.c:124-130. -/
noncomputable def vel (u : Cons ℝ ns) : V3 := ⟨u.M1 / u.d, u.M2 / u.d, u.M3 / u.d⟩

/-! ### The expressions inside the loops -/

/-- The part of the flux that is proportional to a stress: viscosity.c:240-252. -/
noncomputable def stressFlux (nud : ℝ) (sx sy sz : ℝ) (va vb : V3) : VF :=
  ⟨nud * sx, nud * sy, nud * sz, 0.5 * nud * ((va.x1 + vb.x1) * sx + (va.x2 + vb.x2) * sy + (va.x3 + vb.x3) * sz)⟩

/-- x1-interface, viscosity.c:226-252. -/
noncomputable def vis1 (U : Arr (Cons ℝ ns)) (V : Arr V3) (D : Arr ℝ) : Arr VF := fun k j i =>
  let sx := 2 * ((V k j i).x1 - (V k j (i-1)).x1) / q.dx1 - 1/3 * (D k j i + D k j (i-1))
  let sy := ((V k j i).x2 - (V k j (i-1)).x2) / q.dx1
  let sy := if dims w 1 then sy + 0.25 / q.dx2 * (((V k (j+1) i).x1 + (V k (j+1) (i-1)).x1) - ((V k (j-1) i).x1 + (V k (j-1) (i-1)).x1)) else sy
  let sz := ((V k j i).x3 - (V k j (i-1)).x3) / q.dx1
  let sz := if dims w 2 then sz + 0.25 / q.dx3 * (((V (k+1) j i).x1 + (V (k+1) j (i-1)).x1) - ((V (k-1) j i).x1 + (V (k-1) j (i-1)).x1)) else sz
  stressFlux (q.nuIso * 0.5 * ((U k j i).d + (U k j (i-1)).d)) sx sy sz (V k j (i-1)) (V k j i)

/-- x2-interface, viscosity.c:262-288. -/
noncomputable def vis2 (U : Arr (Cons ℝ ns)) (V : Arr V3) (D : Arr ℝ) : Arr VF := fun k j i =>
  let sx := ((V k j i).x1 - (V k (j-1) i).x1) / q.dx2
    + (((V k j (i+1)).x2 + (V k (j-1) (i+1)).x2) - ((V k j (i-1)).x2 + (V k (j-1) (i-1)).x2)) / (4 * q.dx1)
  let sy := 2 * ((V k j i).x2 - (V k (j-1) i).x2) / q.dx2 - 1/3 * (D k j i + D k (j-1) i)
  let sz := ((V k j i).x3 - (V k (j-1) i).x3) / q.dx2
  let sz := if dims w 2 then sz + (((V (k+1) j i).x2 + (V (k+1) (j-1) i).x2) - ((V (k-1) j i).x2 + (V (k-1) (j-1) i).x2)) / (4 * q.dx3) else sz
  stressFlux (q.nuIso * 0.5 * ((U k j i).d + (U k (j-1) i).d)) sx sy sz (V k (j-1) i) (V k j i)

/-- x3-interface, viscosity.c:298-323. -/
noncomputable def vis3 (U : Arr (Cons ℝ ns)) (V : Arr V3) (D : Arr ℝ) : Arr VF := fun k j i =>
  let sx := ((V k j i).x1 - (V (k-1) j i).x1) / q.dx3
    + (((V k j (i+1)).x3 + (V (k-1) j (i+1)).x3) - ((V k j (i-1)).x3 + (V (k-1) j (i-1)).x3)) / (4 * q.dx1)
  let sy := ((V k j i).x2 - (V (k-1) j i).x2) / q.dx3
    + (((V k (j+1) i).x3 + (V (k-1) (j+1) i).x3) - ((V k (j-1) i).x3 + (V (k-1) (j-1) i).x3)) / (4 * q.dx2)
  let sz := 2 * ((V k j i).x3 - (V (k-1) j i).x3) / q.dx3 - 1/3 * (D k j i + D (k-1) j i)
  stressFlux (q.nuIso * 0.5 * ((U k j i).d + (U (k-1) j i).d)) sx sy sz (V (k-1) j i) (V k j i)

/-! ### The loops -/

/-- The static arrays of viscosity.c:41-43. -/
structure WorkV where
  Vel : Arr V3
  divv : Arr ℝ
  F1 : Arr VF
  F2 : Arr VF
  F3 : Arr VF

/-- The loop over active zones and two neighbours on each side, viscosity.c:80-101. -/
def near2 {α : Type} (f old : Arr α) : Arr α :=
  loop3 (g.ks - wid (dims w 2) 2) (g.ke + wid (dims w 2) 2) (g.js - wid (dims w 1) 2) (g.je + wid (dims w 1) 2) (g.is - 2) (g.ie + 2) f old

variable (S : St ℝ ns) (J : WorkV)

/-- viscosity.c:124-130. -/
noncomputable def cVel : Arr V3 := near2 w g (fun k j i => vel (S.U k j i)) J.Vel

/-- viscosity.c:134-160. -/
noncomputable def cDivv : Arr ℝ :=
  let V := cVel w g S J
  let D := loop3 (g.ks - wid (dims w 2) 2) (g.ke + wid (dims w 2) 2) (g.js - wid (dims w 1) 2) (g.je + wid (dims w 1) 2) (g.is - 1) (g.ie + 1)
    (fun k j i => ((V k j (i+1)).x1 - (V k j (i-1)).x1) / (2 * q.dx1)) J.divv
  let D := if dims w 1 then
    mod3 (g.ks - wid (dims w 2) 2) (g.ke + wid (dims w 2) 2) (g.js - 1) (g.je + 1) (g.is - 1) (g.ie + 1)
      (fun k j i x => x + ((V k (j+1) i).x2 - (V k (j-1) i).x2) / (2 * q.dx2)) D else D
  if dims w 2 then
    mod3 (g.ks - 1) (g.ke + 1) (g.js - 1) (g.je + 1) (g.is - 1) (g.ie + 1)
      (fun k j i x => x + ((V (k+1) j i).x3 - (V (k-1) j i).x3) / (2 * q.dx3)) D else D

/-- The x1-fluxes: zeroed (:103-108), then `ViscStress_iso` (:223-254) if `nu_iso > 0` (:165). -/
noncomputable def cF1 : Arr VF :=
  let F := near2 w g (fun _ _ _ => VF.zero) J.F1
  if q.nuIso > 0 then mod3 g.ks g.ke g.js g.je g.is (g.ie+1) (fun k j i x => x.add (vis1 w q S.U (cVel w g S J) (cDivv w q g S J) k j i)) F else F
/-- The x2-fluxes: :110-115, 258-290. -/
noncomputable def cF2 : Arr VF :=
  let F := near2 w g (fun _ _ _ => VF.zero) J.F2
  if q.nuIso > 0 ∧ dims w 1 then
    mod3 g.ks g.ke g.js (g.je+1) g.is g.ie (fun k j i x => x.add (vis2 w q S.U (cVel w g S J) (cDivv w q g S J) k j i)) F else F
/-- The x3-fluxes: :117-122, 294-325. -/
noncomputable def cF3 : Arr VF :=
  let F := near2 w g (fun _ _ _ => VF.zero) J.F3
  if q.nuIso > 0 ∧ dims w 2 then
    mod3 g.ks (g.ke+1) g.js g.je g.is g.ie (fun k j i x => x.add (vis3 q S.U (cVel w g S J) (cDivv w q g S J) k j i)) F else F

/-- Momentum and energy of a zone after the update with two fluxes, viscosity.c:173-178. -/
noncomputable def addF (c : ℝ) (a b : VF) (u : Cons ℝ ns) : Cons ℝ ns :=
  { u with M1 := u.M1 + c * (a.Mx - b.Mx), M2 := u.M2 + c * (a.My - b.My), M3 := u.M3 + c * (a.Mz - b.Mz), E := u.E + c * (a.E - b.E) }

/-- `viscosity`, viscosity.c:66-212; the last three loops are :170-209. -/
noncomputable def viscous : St ℝ ns :=
  let U := mod3 g.ks g.ke g.js g.je g.is g.ie (fun k j i u => addF (q.dt / q.dx1) (cF1 w q g S J k j (i+1)) (cF1 w q g S J k j i) u) S.U
  let U := if dims w 1 then
    mod3 g.ks g.ke g.js g.je g.is g.ie (fun k j i u => addF (q.dt / q.dx2) (cF2 w q g S J k (j+1) i) (cF2 w q g S J k j i) u) U else U
  let U := if dims w 2 then
    mod3 g.ks g.ke g.js g.je g.is g.ie (fun k j i u => addF (q.dt / q.dx3) (cF3 w q g S J (k+1) j i) (cF3 w q g S J k j i) u) U else U
  { S with U := U }

end Model

/-! ## On the lattice -/

section Ideal
variable {ns : ℕ} (w : Which) (q : Diff ns) (L : St ℝ ns)

noncomputable def lVel : Arr V3 := fun k j i => vel (L.U k j i)
/-- Divergence of the velocity by central differences. -/
noncomputable def lDivv : Arr ℝ := fun k j i =>
  ((lVel L k j (i+1)).x1 - (lVel L k j (i-1)).x1) / (2 * q.dx1)
    + (if dims w 1 then ((lVel L k (j+1) i).x2 - (lVel L k (j-1) i).x2) / (2 * q.dx2) else 0)
    + if dims w 2 then ((lVel L (k+1) j i).x3 - (lVel L (k-1) j i).x3) / (2 * q.dx3) else 0
noncomputable def lF1 : Arr VF := fun k j i => if q.nuIso > 0 then vis1 w q L.U (lVel L) (lDivv w q L) k j i else VF.zero
noncomputable def lF2 : Arr VF := fun k j i => if q.nuIso > 0 ∧ dims w 1 then vis2 w q L.U (lVel L) (lDivv w q L) k j i else VF.zero
noncomputable def lF3 : Arr VF := fun k j i => if q.nuIso > 0 ∧ dims w 2 then vis3 q L.U (lVel L) (lDivv w q L) k j i else VF.zero

/-- The zone after the viscous update. -/
noncomputable def lVisc (k j i : ℤ) : Cons ℝ ns :=
  let u := addF (q.dt / q.dx1) (lF1 w q L k j (i+1)) (lF1 w q L k j i) (L.U k j i)
  let u := if dims w 1 then addF (q.dt / q.dx2) (lF2 w q L k (j+1) i) (lF2 w q L k j i) u else u
  if dims w 2 then addF (q.dt / q.dx3) (lF3 w q L (k+1) j i) (lF3 w q L k j i) u else u

/-- `viscosity` on a lattice. -/
noncomputable def latVisc : St ℝ ns := { L with U := lVisc w q L }

variable (a b d k j i : ℤ)
theorem sVel : lVel (L.shift a b d) k j i = lVel L (k+a) (j+b) (i+d) := rfl
theorem sDivv : lDivv w q (L.shift a b d) k j i = lDivv w q L (k+a) (j+b) (i+d) := by
  simp only [lDivv, sVel, pm, pp]
theorem sF1 : lF1 w q (L.shift a b d) k j i = lF1 w q L (k+a) (j+b) (i+d) := by
  simp only [lF1, vis1, sVel, sDivv, pm, pp]; simp only [St.shift, pm]
theorem sF2 : lF2 w q (L.shift a b d) k j i = lF2 w q L (k+a) (j+b) (i+d) := by
  simp only [lF2, vis2, sVel, sDivv, pm, pp]; simp only [St.shift, pm]
theorem sF3 : lF3 w q (L.shift a b d) k j i = lF3 w q L (k+a) (j+b) (i+d) := by
  simp only [lF3, vis3, sVel, sDivv, pm, pp]; simp only [St.shift, pm]
theorem latVisc_shift : (latVisc w q L).shift a b d = latVisc w q (L.shift a b d) := by
  have : (fun k j i => lVisc w q L (k+a) (j+b) (i+d)) = lVisc w q (L.shift a b d) := by
    funext k j i
    simp only [lVisc, sF1, sF2, sF3, pp]
    rfl
  unfold latVisc
  rw [← this]
  rfl

end Ideal

/-! ## Agreement -/

section Agreement
variable {ns : ℕ} {w : Which} {q : Diff ns} {g : Rng} {S L : St ℝ ns} {J : WorkV}

/-- What the viscous update reads: density and momentum over active and ghost zones. -/
def AgV (w : Which) (g : Rng) (S L : St ℝ ns) : Prop :=
  ∀ k j i : ℤ, g.ks - 4 * wid (dims w 2) 1 ≤ k → k ≤ g.ke + 4 * wid (dims w 2) 1 → g.js - 4 * wid (dims w 1) 1 ≤ j →
    j ≤ g.je + 4 * wid (dims w 1) 1 → g.is - 4 ≤ i → i ≤ g.ie + 4 →
    (S.U k j i).d = (L.U k j i).d ∧ vel (S.U k j i) = vel (L.U k j i)

theorem agV_of (hg : RngOk (dims w) g) (ha : AgreeA (dims w) g S L) : AgV w g S L := fun k j i h1 h2 h3 h4 h5 h6 => by
  rw [agU hg ha h1 h2 h3 h4 h5 h6]; exact ⟨rfl, rfl⟩

variable (hv : AgV w g S L)
include hv

theorem aVel {k j i : ℤ} (h1 : g.ks - 2 * wid (dims w 2) 1 ≤ k) (h2 : k ≤ g.ke + 2 * wid (dims w 2) 1) (h3 : g.js - 2 * wid (dims w 1) 1 ≤ j)
    (h4 : j ≤ g.je + 2 * wid (dims w 1) 1) (h5 : g.is - 2 ≤ i) (h6 : i ≤ g.ie + 2) : cVel w g S J k j i = lVel L k j i := by
  have e1 := wid_one (dims w 1); have e2 := wid_one (dims w 2)
  have m1 := wid_mul (dims w 1) 2; have m2 := wid_mul (dims w 2) 2
  rw [cVel, near2, loop3_in _ _ (by omega) (by omega) (by omega) (by omega) h5 h6,
    (hv k j i (by omega) (by omega) (by omega) (by omega) (by omega) (by omega)).2]
  rfl

theorem aD {k j i : ℤ} (h1 : g.ks - 2 * wid (dims w 2) 1 ≤ k) (h2 : k ≤ g.ke + 2 * wid (dims w 2) 1) (h3 : g.js - 2 * wid (dims w 1) 1 ≤ j)
    (h4 : j ≤ g.je + 2 * wid (dims w 1) 1) (h5 : g.is - 2 ≤ i) (h6 : i ≤ g.ie + 2) : (S.U k j i).d = (L.U k j i).d := by
  have e1 := wid_one (dims w 1); have e2 := wid_one (dims w 2)
  exact (hv k j i (by omega) (by omega) (by omega) (by omega) (by omega) (by omega)).1

theorem aDivv {k j i : ℤ} (h1 : g.ks - wid (dims w 2) 1 ≤ k) (h2 : k ≤ g.ke + wid (dims w 2) 1) (h3 : g.js - wid (dims w 1) 1 ≤ j)
    (h4 : j ≤ g.je + wid (dims w 1) 1) (h5 : g.is - 1 ≤ i) (h6 : i ≤ g.ie + 1) : cDivv w q g S J k j i = lDivv w q L k j i := by
  have e1 := wid_one (dims w 1); have e2 := wid_one (dims w 2)
  have m1 := wid_mul (dims w 1) 2; have m2 := wid_mul (dims w 2) 2
  unfold cDivv lDivv
  by_cases hw : dims w 1 = true
  · have w1 := wid_on hw
    by_cases hz : dims w 2 = true
    · have w2 := wid_on hz
      rw [if_pos hz, if_pos hz, if_pos hw, if_pos hw, mod3_in _ _ (by omega) (by omega) (by omega) (by omega) (by omega) (by omega),
        mod3_in _ _ (by omega) (by omega) (by omega) (by omega) (by omega) (by omega),
        loop3_in _ _ (by omega) (by omega) (by omega) (by omega) (by omega) (by omega)]
      simp (disch := omega) only [aVel hv]
    · rw [if_neg hz, if_neg hz, if_pos hw, if_pos hw, mod3_in _ _ (by omega) (by omega) (by omega) (by omega) (by omega) (by omega),
        loop3_in _ _ (by omega) (by omega) (by omega) (by omega) (by omega) (by omega)]
      simp (disch := omega) only [aVel hv, add_zero]
  · have hz : ¬ dims w 2 = true := by cases w <;> simp at hw ⊢
    rw [if_neg hz, if_neg hz, if_neg hw, if_neg hw, loop3_in _ _ (by omega) (by omega) (by omega) (by omega) (by omega) (by omega)]
    simp (disch := omega) only [aVel hv, add_zero]

theorem VF.zero_add (a : VF) : VF.zero.add a = a := by ext <;> simp [VF.zero, VF.add]

theorem aF1 {k j i : ℤ} (h1 : g.ks ≤ k) (h2 : k ≤ g.ke) (h3 : g.js ≤ j) (h4 : j ≤ g.je) (h5 : g.is ≤ i) (h6 : i ≤ g.ie + 1) :
    cF1 w q g S J k j i = lF1 w q L k j i := by
  have e1 := wid_one (dims w 1); have e2 := wid_one (dims w 2)
  have m1 := wid_mul (dims w 1) 2; have m2 := wid_mul (dims w 2) 2
  have z : near2 w g (fun _ _ _ => VF.zero) J.F1 k j i = VF.zero :=
    loop3_in _ _ (by omega) (by omega) (by omega) (by omega) (by omega) (by omega)
  have i1 : vis1 w q S.U (cVel w g S J) (cDivv w q g S J) k j i = vis1 w q L.U (lVel L) (lDivv w q L) k j i := by
    simp only [vis1]
    by_cases hw : dims w 1 = true
    · have w1 := wid_on hw
      by_cases hz : dims w 2 = true
      · have w2 := wid_on hz
        simp only [if_pos hw, if_pos hz]
        simp (disch := omega) only [aVel hv, aDivv hv, aD hv]
      · simp only [if_pos hw, if_neg hz]
        simp (disch := omega) only [aVel hv, aDivv hv, aD hv]
    · have hz : ¬ dims w 2 = true := by cases w <;> simp at hw ⊢
      simp only [if_neg hw, if_neg hz]
      simp (disch := omega) only [aVel hv, aDivv hv, aD hv]
  unfold cF1 lF1
  by_cases hn : q.nuIso > 0
  · simp (disch := omega) only [hn, if_true, mod3_in, i1, z, VF.zero_add hv]
  · simp only [hn, if_false, z]

theorem aF2 (hw : dims w 1 = true) {k j i : ℤ} (h1 : g.ks ≤ k) (h2 : k ≤ g.ke) (h3 : g.js ≤ j) (h4 : j ≤ g.je + 1) (h5 : g.is ≤ i) (h6 : i ≤ g.ie) :
    cF2 w q g S J k j i = lF2 w q L k j i := by
  have w1 := wid_on hw; have e2 := wid_one (dims w 2)
  have m1 := wid_mul (dims w 1) 2; have m2 := wid_mul (dims w 2) 2
  have z : near2 w g (fun _ _ _ => VF.zero) J.F2 k j i = VF.zero :=
    loop3_in _ _ (by omega) (by omega) (by omega) (by omega) (by omega) (by omega)
  have i1 : vis2 w q S.U (cVel w g S J) (cDivv w q g S J) k j i = vis2 w q L.U (lVel L) (lDivv w q L) k j i := by
    simp only [vis2]
    by_cases hz : dims w 2 = true
    · have w2 := wid_on hz
      simp only [if_pos hz]
      simp (disch := omega) only [aVel hv, aDivv hv, aD hv]
    · simp only [if_neg hz]
      simp (disch := omega) only [aVel hv, aDivv hv, aD hv]
  unfold cF2 lF2
  by_cases hn : q.nuIso > 0
  · simp (disch := omega) only [hn, hw, and_self, if_true, mod3_in, i1, z, VF.zero_add hv]
  · simp only [hn, false_and, if_false, z]

theorem aF3 (hw : dims w 2 = true) {k j i : ℤ} (h1 : g.ks ≤ k) (h2 : k ≤ g.ke + 1) (h3 : g.js ≤ j) (h4 : j ≤ g.je) (h5 : g.is ≤ i) (h6 : i ≤ g.ie) :
    cF3 w q g S J k j i = lF3 w q L k j i := by
  have hw1 : dims w 1 = true := by cases w <;> simp at hw ⊢
  have w1 := wid_on hw1; have w2 := wid_on hw
  have m1 := wid_mul (dims w 1) 2; have m2 := wid_mul (dims w 2) 2
  have z : near2 w g (fun _ _ _ => VF.zero) J.F3 k j i = VF.zero :=
    loop3_in _ _ (by omega) (by omega) (by omega) (by omega) (by omega) (by omega)
  have i1 : vis3 q S.U (cVel w g S J) (cDivv w q g S J) k j i = vis3 q L.U (lVel L) (lDivv w q L) k j i := by
    simp (disch := omega) only [vis3, aVel hv, aDivv hv, aD hv]
  unfold cF3 lF3
  by_cases hn : q.nuIso > 0
  · simp (disch := omega) only [hn, hw, and_self, if_true, mod3_in, i1, z, VF.zero_add hv]
  · simp only [hn, false_and, if_false, z]

/-- What `viscosity` does to an active zone. -/
theorem viscous_U {k j i : ℤ} (hU : S.U k j i = L.U k j i)
    (h1 : g.ks ≤ k) (h2 : k ≤ g.ke) (h3 : g.js ≤ j) (h4 : j ≤ g.je) (h5 : g.is ≤ i) (h6 : i ≤ g.ie) :
    (viscous w q g S J).U k j i = lVisc w q L k j i := by
  unfold viscous lVisc
  dsimp only
  have a1 : cF1 w q g S J k j (i+1) = lF1 w q L k j (i+1) := aF1 hv h1 h2 h3 h4 (by omega) (by omega)
  have a2 : cF1 w q g S J k j i = lF1 w q L k j i := aF1 hv h1 h2 h3 h4 h5 (by omega)
  by_cases hw : dims w 1 = true
  · have b1 : cF2 w q g S J k (j+1) i = lF2 w q L k (j+1) i := aF2 hv hw h1 h2 (by omega) (by omega) h5 h6
    have b2 : cF2 w q g S J k j i = lF2 w q L k j i := aF2 hv hw h1 h2 h3 (by omega) h5 h6
    by_cases hz : dims w 2 = true
    · have c1 : cF3 w q g S J (k+1) j i = lF3 w q L (k+1) j i := aF3 hv hz (by omega) (by omega) h3 h4 h5 h6
      have c2 : cF3 w q g S J k j i = lF3 w q L k j i := aF3 hv hz h1 (by omega) h3 h4 h5 h6
      simp only [hw, hz, if_true]
      rw [mod3_in _ _ h1 h2 h3 h4 h5 h6, mod3_in _ _ h1 h2 h3 h4 h5 h6, mod3_in _ _ h1 h2 h3 h4 h5 h6, hU, a1, a2, b1, b2, c1, c2]
    · simp only [hw, hz, if_true, if_false, Bool.false_eq_true]
      rw [mod3_in _ _ h1 h2 h3 h4 h5 h6, mod3_in _ _ h1 h2 h3 h4 h5 h6, hU, a1, a2, b1, b2]
  · have hz : ¬ dims w 2 = true := by cases w <;> simp at hw ⊢
    simp only [hw, hz, if_false, Bool.false_eq_true]
    rw [mod3_in _ _ h1 h2 h3 h4 h5 h6, hU, a1, a2]

theorem viscous_act (h : ActEq (dims w) g S L) : ActEq (dims w) g (viscous w q g S J) (latVisc w q L) :=
  ⟨fun k j i h1 h2 h3 h4 h5 h6 => viscous_U hv (h.U k j i h1 h2 h3 h4 h5 h6) h1 h2 h3 h4 h5 h6, h.B1, h.B2, h.B3⟩

end Agreement

section Results
variable {ns : ℕ}

theorem viscous_lattice (w : Which) : Lattice (dims w) (viscous (ns := ns) w) (latVisc w) :=
  lattice_of (fun q L a b d => latVisc_shift w q L a b d) fun _ _ _ _ _ hg ha => viscous_act (agV_of hg ha) (act_of hg ha)

theorem latVisc_conserves (w : Which) (q : Diff ns) : Conserves (dims w) (latVisc w q) := by
  intro N L hL hN f hf is js ks
  have p1 := fun k j i => per1 hL (lF1 w q) (fun L a b d k j i => sF1 w q L a b d k j i) k j i
  have p2 := fun k j i => per2 hL (lF2 w q) (fun L a b d k j i => sF2 w q L a b d k j i) k j i
  have p3 := fun k j i => per3 hL (lF3 w q) (fun L a b d k j i => sF3 w q L a b d k j i) k j i
  have go : ∀ (e : VF → ℝ) (f : Fld), (∀ k j i, lval f (latVisc w q L) k j i = lval f L k j i
      + q.dt / q.dx1 * (e (lF1 w q L k j (i+1)) - e (lF1 w q L k j i))
      + (if dims w 1 then q.dt / q.dx2 * (e (lF2 w q L k (j+1) i) - e (lF2 w q L k j i)) else 0)
      + if dims w 2 then q.dt / q.dx3 * (e (lF3 w q L (k+1) j i) - e (lF3 w q L k j i)) else 0) →
      zsum (N 0) (N 1) (N 2) is js ks (lval f (latVisc w q L)) = zsum (N 0) (N 1) (N 2) is js ks (lval f L) := by
    intro e f hf
    refine zsum_step (fun k j i => e (lF1 w q L k j i)) (fun k j i => if dims w 1 then e (lF2 w q L k j i) else 0)
      (fun k j i => if dims w 2 then e (lF3 w q L k j i) else 0)
      (-(q.dt / q.dx1)) (-(q.dt / q.dx2)) (-(q.dt / q.dx3)) ?_ ?_ ?_ ?_
    · intro k j i
      rw [hf]
      split_ifs <;> ring
    · intro k j i; rw [p1]
    · intro k j i; rw [p2]
    · intro k j i; rw [p3]
  have same : ∀ f : Fld, lval f (latVisc w q L) = lval f L → zsum (N 0) (N 1) (N 2) is js ks (lval f (latVisc w q L)) =
      zsum (N 0) (N 1) (N 2) is js ks (lval f L) := fun f h => by rw [h]
  cases f with
  | face n => exact same _ rfl
  | cell v =>
    cases v with
    | d => apply same; funext k j i; simp only [lval, latVisc, lVisc, Cons.get, addF]; split_ifs <;> rfl
    | E =>
      refine go VF.E _ fun k j i => ?_
      simp only [lval, latVisc, lVisc, Cons.get, addF]
      split_ifs <;> simp
    | M t =>
      rcases three t with rfl | rfl | rfl
      · refine go VF.Mx _ fun k j i => ?_
        simp only [lval, latVisc, lVisc, Cons.get, addF]
        split_ifs <;> simp
      · refine go VF.My _ fun k j i => ?_
        by_cases hw : dims w 1 = true <;> by_cases hz : dims w 2 = true <;> simp [lval, latVisc, lVisc, Cons.get, addF, hw, hz]
      · refine go VF.Mz _ fun k j i => ?_
        by_cases hw : dims w 1 = true <;> by_cases hz : dims w 2 = true <;> simp [lval, latVisc, lVisc, Cons.get, addF, hw, hz]
    | Bc t => apply same; funext k j i; simp only [lval, latVisc, lVisc, Cons.get, addF]; split_ifs <;> rfl
    | s n => apply same; funext k j i; simp only [lval, latVisc, lVisc, Cons.get, addF]; split_ifs <;> rfl

theorem viscous_divB (w : Which) (q : Diff ns) (dx : Fin 3 → ℝ) : KeepsDivB (dims w) dx (viscous w q) := by
  intro g S J k j i _ _ _ _ _ _ _
  rfl

end Results
end Athena.Micro
